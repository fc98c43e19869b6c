{"id": "C01", "title": "Byte run-length round trip", "statement": "Every sequence of bytes fed to the byte run-length encoder one Encode at a time and then flushed decodes, by repeated DecodeByteRL until the bytes run out, to exactly the same sequence; no call errors or panics.", "quantifier": "all byte sequences of any length", "why_tests_cant": "the run/literal split depends on the whole history and on the 128 boundary; there are unboundedly many sequences", "anchors": ["orc/encoding/byte.go: byteRunLength.Encode, Flush, encodeBytes, findRepeats, DecodeByteRL"]}
{"id": "C02", "title": "Byte run-length encoder is reusable across flushes", "statement": "For any interleaving of Encode and Flush calls that ends in a Flush, the concatenated output decodes to the concatenation of all the encoded bytes: a flush never loses, repeats or reorders a value and leaves the encoder as good as new.", "quantifier": "all finite histories of Encode/Flush calls", "why_tests_cant": "the histories are unbounded interleavings", "anchors": ["orc/encoding/byte.go: byteRunLength.Encode, Flush"]}
{"id": "C03", "title": "Byte run-length positions point at the right value", "statement": "With positions enabled, after any sequence of Encode calls GetPosition returns one number p such that the bytes emitted so far decode to all but the last p values encoded; so seeking to the current byte offset and skipping p values lands exactly after the last value encoded.", "quantifier": "all byte sequences and every prefix of them", "why_tests_cant": "index positions are taken at arbitrary rows; a test can only check a few", "anchors": ["orc/encoding/byte.go: byteRunLength.GetPosition, Encode"]}
{"id": "C04", "title": "Byte run-length decoder is total on arbitrary input", "statement": "On any input bytes, one DecodeByteRL call either returns between 1 and 130 values and consumes a nonempty prefix of the input, or reports end of input; it never panics.", "quantifier": "all byte strings, including corrupt ones", "why_tests_cant": "the space of corrupt files is unbounded", "anchors": ["orc/encoding/byte.go: DecodeByteRL"]}
{"id": "C05", "title": "Boolean bit-packing round trip", "statement": "Every sequence of booleans encoded with a fresh boolean encoder and flushed once decodes to the same sequence followed by fewer than eight padding falses.", "quantifier": "all boolean sequences of any length", "why_tests_cant": "partial bytes, runs and literal groups interact for every length", "anchors": ["orc/encoding/bool.go: boolRunLength.Encode, Flush, DecodeBools"]}
{"id": "C06", "title": "Boolean encoder is reusable across flushes", "statement": "After a Flush, the values encoded next decode exactly as if they had been written by a fresh encoder (this is what makes the second and later stripes' boolean and null streams readable).", "quantifier": "all boolean sequences before and after a flush", "why_tests_cant": "depends on the bits left in a partial byte by an arbitrary earlier history", "anchors": ["orc/encoding/bool.go: boolRunLength.Flush, Encode"]}
{"id": "C07", "title": "Boolean positions point at the right value", "statement": "With positions enabled, after any sequence of Encode calls GetPosition returns two numbers (p, b), b<8, such that the bytes emitted so far decode to the bytes preceding p pending bytes and b pending bits: seek to the byte offset, skip p bytes, skip b bits lands exactly after the last value.", "quantifier": "all boolean sequences", "why_tests_cant": "positions are taken at arbitrary rows", "anchors": ["orc/encoding/bool.go: boolRunLength.GetPosition, Encode"]}
{"id": "C08", "title": "Zigzag is a bijection on 64-bit values", "statement": "UnZigzag inverts Zigzag on every int64, Zigzag inverts UnZigzag on every uint64, the mapping is n>=0 -> 2n, n<0 -> -2n-1, and Convert agrees with UnZigzag.", "quantifier": "all 2^64 values", "why_tests_cant": "2^64 inputs", "anchors": ["orc/encoding/package.go: Zigzag, UnZigzag, Convert"]}
{"id": "C09", "title": "Decimal mantissa varint round trip", "statement": "Every sequence of int64 mantissas written with the varint encoder reads back, value by value, as the same sequence, and each value uses between 1 and 10 bytes.", "quantifier": "all sequences of int64", "why_tests_cant": "2^64 values and unbounded sequences", "anchors": ["orc/encoding/int.go: varint64Encoder, DecodeVarInt64", "orc/stream/int.go: VarInt64Reader"]}
{"id": "C10", "title": "Float and double round trip bit-exactly", "statement": "Every float32/float64 bit pattern, including NaN payloads, infinities and negative zero, written with the float/double encoder reads back as the identical bit pattern, in sequence.", "quantifier": "all bit patterns and all sequences", "why_tests_cant": "2^32 and 2^64 patterns", "anchors": ["orc/encoding/float.go: floatEncoder, doubleEncoder, DecodeFloat, DecodeDouble"]}
{"id": "C11", "title": "String contents round trip", "statement": "A sequence of byte strings written to the contents stream, read back with the list of their lengths, gives the same strings, including empty ones; asking for more bytes than remain is an error, not a short string.", "quantifier": "all sequences of byte strings", "why_tests_cant": "unbounded", "anchors": ["orc/encoding/string.go: bytesContent.Encode, DecodeBytes", "orc/stream/string.go: StringContentsReader"]}
{"id": "C12", "title": "Timestamp nanosecond encoding round trip", "statement": "For every nanosecond count below 10^9 (indeed for every count below 2^61) DecodingNano(EncodingNano n) = n, in both copies of the functions, and trailing decimal zeros are removed as the ORC format prescribes.", "quantifier": "all nanosecond counts", "why_tests_cant": "10^9 inputs, and the boundary 2^61", "anchors": ["orc/encoding/package.go: EncodingNano, DecodingNano", "orc/api/vector.go: Timestamp nano helpers"]}
{"id": "C13", "title": "Timestamp conversion keeps the instant", "statement": "Converting an instant to an ORC timestamp and back with Time() gives the same instant, for every instant and location; GetMilliSeconds is the instant's Unix time in milliseconds.", "quantifier": "all instants and all locations", "why_tests_cant": "unbounded instants, any offset", "anchors": ["orc/api/vector.go: Timestamp.Time, GetTimestamp, GetMilliSeconds"]}
{"id": "C14", "title": "Date conversion round trip", "statement": "FromDays(d).ToDays() = d for every day count an ORC date column can hold (every int32).", "quantifier": "all int32 day counts", "why_tests_cant": "2^32 values with an overflow boundary", "anchors": ["orc/api/vector.go: Date, FromDays, ToDays"]}
{"id": "C15", "title": "Bit-width codes are inverted by the reader", "statement": "Every bit width the integer encoder can put in a header is decoded to the same width, or the encoder reports an error.", "quantifier": "all widths, both delta and non-delta mode", "why_tests_cant": "finite but the interplay with zero widths is missed by sample tests", "anchors": ["orc/encoding/package.go: widthEncoding, widthDecoding"]}
{"id": "C16", "title": "Bit packing round trip", "statement": "Values of any width written with the big-endian bit writer and read with the bit reader at the same widths come back unchanged, whatever mix of widths is used, whenever the writer does not report an error.", "quantifier": "all sequences of (value,width) pairs", "why_tests_cant": "unbounded sequences with carried partial bytes", "anchors": ["orc/encoding/int.go: encoder.writeBits, writeLeftBits, decoder.readBits"]}
{"id": "C17", "title": "Integer run: short repeat round trip", "statement": "A run of 3 to 10 equal integers written as a short repeat decodes to the same run, for every value.", "quantifier": "all 64-bit values, repeat counts 3..10", "why_tests_cant": "2^64 values; the failing ones are those with a zero byte", "anchors": ["orc/encoding/int.go: writeShortRepeat, decode (short repeat)"]}
{"id": "C18", "title": "Integer run: direct round trip", "statement": "A direct run of 1 to 512 integers decodes to the same integers, whatever the values.", "quantifier": "all lists of 1..512 integers", "why_tests_cant": "unbounded values", "anchors": ["orc/encoding/int.go: writeDirect, decode (direct)"]}
{"id": "C19", "title": "Integer run: delta round trip", "statement": "A monotone run that the delta encoder accepts is written without error or panic and decodes to the same integers, including when differences wrap around 2^64.", "quantifier": "all monotone lists of at most 512 64-bit integers, signed and unsigned", "why_tests_cant": "unbounded values; failing widths and varint overflow are boundary cases", "anchors": ["orc/encoding/int.go: tryDeltaEncoding, writeDelta, decode (delta)"]}
{"id": "C20", "title": "Integer run: patched base round trip", "statement": "A signed run that the patched-base encoder accepts is written without error or panic and decodes to the same integers.", "quantifier": "all lists of at most 512 int64", "why_tests_cant": "unbounded values; gaps, widths and outliers interact", "anchors": ["orc/encoding/int.go: tryPatch, writePatch, readPatched"]}
{"id": "C21", "title": "Integer column data round trip", "statement": "Any sequence of integers encoded and flushed once decodes to the same sequence, signed and unsigned.", "quantifier": "all integer sequences", "why_tests_cant": "unbounded; block choice depends on all values", "anchors": ["orc/encoding/int.go: encoder.Encode, Flush, write, IntDecoder.DecodeInt, DecodeUInt"]}
{"id": "C22", "title": "Integer encoder is reusable and loses nothing across flushes", "statement": "For any interleaving of Encode and Flush ending in Flush, if no call reports an error the concatenated output decodes to all the values in order.", "quantifier": "all Encode/Flush histories", "why_tests_cant": "unbounded interleavings", "anchors": ["orc/encoding/int.go: encoder.Encode, Flush"]}
{"id": "C23", "title": "Integer encoder positions point at the right value", "statement": "After any sequence of Encode calls GetPosition is the number of values not yet emitted, so the bytes emitted so far hold exactly the values before them.", "quantifier": "all integer sequences", "why_tests_cant": "positions at arbitrary rows", "anchors": ["orc/encoding/int.go: encoder.GetPosition, Encode"]}
{"id": "C24", "title": "Integer encoder never fails on valid integers", "statement": "Encode and Flush never return an error or panic on int64 (signed) or uint64 (unsigned) values.", "quantifier": "all integer sequences", "why_tests_cant": "the failing value patterns are rare and data dependent", "anchors": ["orc/encoding/int.go: encoder.write, writeDelta, writePatch, tryPatch"]}
{"id": "C25", "title": "Integer encoder keeps at most one block pending", "statement": "Between calls at most 512 integers are pending, so every block's 9-bit length field can hold the block's length.", "quantifier": "all Encode histories", "why_tests_cant": "needs >512 values of a particular shape", "anchors": ["orc/encoding/int.go: encoder.Encode, write"]}
{"id": "C26", "title": "Integer decoder agrees with the ORC RLEv2 format", "statement": "For any well-formed RLEv2 block (as produced by any ORC writer), the decoder returns the values the ORC specification assigns to it.", "quantifier": "all well-formed RLEv2 blocks", "why_tests_cant": "blocks from other writers are unbounded", "anchors": ["orc/encoding/int.go: IntDecoder.decode, readPatched"]}
{"id": "C27", "title": "Integer decoder is total on arbitrary input", "statement": "On any bytes, one decode call returns at least one and at most 513 values or reports an error; it never panics.", "quantifier": "all byte strings", "why_tests_cant": "corrupt inputs are unbounded", "anchors": ["orc/encoding/int.go: IntDecoder.decode, readPatched"]}
{"id": "C28", "title": "Chunk headers round trip", "statement": "Decoding an encoded chunk header gives back the length and the original flag for every length the 3-byte header can hold (below 2^23), and for no longer length.", "quantifier": "all lengths and both flags", "why_tests_cant": "2^23 lengths plus the boundary", "anchors": ["orc/common/misc.go: encChunkHeader, DecChunkHeader"]}
{"id": "C29", "title": "Compressed chunk framing round trip", "statement": "For every byte string, chunk size from 1 to 2^23-1 and lossless compressor, compressing all in chunks and decompressing the chunks gives the byte string back.", "quantifier": "all byte strings, chunk sizes and lossless compressors", "why_tests_cant": "unbounded", "anchors": ["orc/common/misc.go: CompressingAllInChunks, CompressingChunks, CompressingLeft, DecompressChunks", "orc/reader.go: ReadChunks"]}
{"id": "C30", "title": "Chunks respect the chunk size", "statement": "Every chunk written holds at most chunk-size bytes both stored and decompressed, is never empty, and is stored uncompressed exactly when compression would have enlarged it, so no reader configured with that chunk size rejects it.", "quantifier": "all byte strings, chunk sizes and compressors", "why_tests_cant": "unbounded", "anchors": ["orc/common/misc.go: zlibCompressingToChunks, zlibCompressingLeft", "orc/stream/reader.go: readAChunk"]}
{"id": "C31", "title": "A stream reads back the bytes that were written", "statement": "However writes were split into chunks, the stream reader delivers exactly the bytes the encoder produced, one by one or in blocks, and then reports the end.", "quantifier": "all write histories, chunk sizes, read patterns", "why_tests_cant": "unbounded interleavings of chunk boundaries and reads", "anchors": ["orc/stream/writer.go: Write, Flush, WriteOut", "orc/stream/reader.go: ReadByte, Read, readAChunk"]}
{"id": "C32", "title": "Stream length accounting", "statement": "The length recorded in a stream's info after Flush equals the number of bytes WriteOut then emits, and Size() never misses pending bytes.", "quantifier": "all write histories", "why_tests_cant": "unbounded", "anchors": ["orc/stream/writer.go: Flush, WriteOut, Size, Info"]}
{"id": "C33", "title": "Stream positions can be sought to", "statement": "A position taken from the stream writer after any number of writes, handed to the reader's Seek on the finished stream, makes the reader continue with exactly the value written next.", "quantifier": "all write histories, every point in them, with and without compression", "why_tests_cant": "positions × chunk boundaries", "anchors": ["orc/stream/writer.go: GetPosition", "orc/stream/reader.go: seek", "orc/stream/*.go: Seek"]}
{"id": "C34", "title": "Typed streams round trip", "statement": "Byte, boolean, integer, float, double, varint and string streams read back the values written, in order, across any chunking.", "quantifier": "all value sequences and chunk sizes", "why_tests_cant": "unbounded", "anchors": ["orc/stream/*.go"]}
{"id": "C35", "title": "End of stream is detected", "statement": "Finished() is false as long as a value written has not been read, and true once all have been.", "quantifier": "all streams and read counts", "why_tests_cant": "unbounded", "anchors": ["orc/stream/reader.go: finished", "orc/stream/*.go: Finished"]}
{"id": "C36", "title": "Uncompressed files can be written", "statement": "With compression NONE, writing any rows and closing produces a file, as with ZLIB.", "quantifier": "all row sequences", "why_tests_cant": "must hold for every input; tests only use ZLIB at file level", "anchors": ["orc/common/misc.go: CompressingLeft, CompressingAllInChunks", "orc/stripe.go: writeFooter", "orc/stream/writer.go: Reset"]}
{"id": "C37", "title": "Nullable column round trip", "statement": "For tinyint, boolean, smallint, int, bigint, float, double, string and date columns, reading a batch gives back for every row the null flag and, for non-null rows, the value that was written.", "quantifier": "all sequences of optional values, any batch splitting", "why_tests_cant": "unbounded sequences of nulls and values", "anchors": ["orc/column/byte.go", "orc/column/bool.go", "orc/column/int.go", "orc/column/float.go", "orc/column/string.go", "orc/column/time.go"]}
{"id": "C38", "title": "Decimal and timestamp columns deliver their values", "statement": "Reading a batch of a decimal or timestamp column stores the decoded value of every non-null row in the batch.", "quantifier": "all decimal/timestamp columns", "why_tests_cant": "the read path must work for every row", "anchors": ["orc/column/decimal.go: DecimalV2Reader.NextBatch", "orc/column/time.go: TimestampV2Reader.NextBatch"]}
{"id": "C39", "title": "Binary columns round trip", "statement": "A binary column that was written can be read back.", "quantifier": "all sequences of binary values", "why_tests_cant": "must hold for every input", "anchors": ["orc/column/binary.go: binaryV2Writer.Write, BinaryV2Reader.NextBatch"]}
{"id": "C40", "title": "Dictionary string columns can be written", "statement": "Flushing a dictionary-encoded string column succeeds for every sequence of strings.", "quantifier": "all sequences of strings", "why_tests_cant": "must hold for every input", "anchors": ["orc/column/string.go: stringDictionaryV2Writer.Write, Flush"]}
{"id": "C41", "title": "Skip n rows equals reading n rows", "statement": "Skipping n rows of a column and then reading gives the same rows as reading and dropping the first n, for every mix of nulls.", "quantifier": "all columns, null patterns and n", "why_tests_cant": "unbounded", "anchors": ["orc/column/*.go: Skip"]}
{"id": "C42", "title": "List and map rows carry their own elements", "statement": "After reading a batch of a list or map column, each row's elements are available: the child vectors hold the elements of all rows of the batch in order; skipping n rows skips exactly their elements.", "quantifier": "all lists of rows and lengths", "why_tests_cant": "unbounded", "anchors": ["orc/column/list.go: ListV2Reader.NextBatch, Skip", "orc/column/map.go: MapV2Reader.NextBatch, Skip"]}
{"id": "C43", "title": "Null written to a non-nullable column is rejected", "statement": "Writing a null to a column whose schema says it has no nulls either fails or is delivered as null; rows are never silently shifted.", "quantifier": "all row sequences", "why_tests_cant": "depends on arbitrary placement of nulls", "anchors": ["orc/column/*.go: Write", "orc/writer.go: Write"]}
{"id": "C44", "title": "Column statistics describe the column", "statement": "The number of values equals the count of non-null rows, the sum is the sum of the values, and minimum and maximum are the least and greatest values present.", "quantifier": "all value sequences", "why_tests_cant": "unbounded; initial values leak for one-signed data", "anchors": ["orc/column/int.go: intWriter.Write", "orc/column/package.go: newIntWriter..."]}
{"id": "C45", "title": "Row-group statistics describe their row group", "statement": "Each row-index entry's statistics cover exactly the rows of its row group.", "quantifier": "all row sequences and strides", "why_tests_cant": "off-by-one at each group boundary", "anchors": ["orc/column/int.go: intWriter.Write (index part)", "orc/column/writer.go"]}
{"id": "C46", "title": "Row-index entries point at stride boundaries", "statement": "Entry k of the row index of a column holds the positions after exactly (k+1)*stride rows, and seeking to stride k makes the reader continue with row k*stride.", "quantifier": "all row sequences, strides, null patterns", "why_tests_cant": "positions × nulls × strides", "anchors": ["orc/column/*.go: Write (index part), SeekStride", "orc/column/reader.go: getStridePositions, seek"]}
{"id": "C47", "title": "Writing with the row index enabled works for every type and stripe", "statement": "Turning WriteIndex on never makes Write fail or panic, in any stripe.", "quantifier": "all types, rows and stripe histories", "why_tests_cant": "type- and history-dependent panics", "anchors": ["orc/column/writer.go: reset", "orc/column/float.go: floatWriter.Write", "orc/column/decimal.go: decimal64DirectV2Writer.Write"]}
{"id": "C48", "title": "Bytes-on-disk statistics add up", "statement": "A column's BytesOnDisk is the total length of all its streams over all stripes.", "quantifier": "all stripe histories", "why_tests_cant": "needs several stripes and nulls", "anchors": ["orc/column/*.go: Flush"]}
{"id": "C49", "title": "Schema normalisation numbers columns in pre-order", "statement": "Normalising a schema gives the columns the ids 0..n-1 in pre-order; flattening lists them in id order, each exactly once.", "quantifier": "all schema trees without unions", "why_tests_cant": "unbounded trees", "anchors": ["orc/api/type.go: SetId/NormalizeSchema, Flat, traverse"]}
{"id": "C50", "title": "Schema survives the file footer", "statement": "Converting a normalised schema to footer types and back gives the same tree: same kinds, ids, children and struct field names.", "quantifier": "all schema trees", "why_tests_cant": "unbounded trees", "anchors": ["orc/api/type.go: SchemasToTypes", "orc/reader.go: unmarshallSchema"]}
{"id": "C51", "title": "Unsupported nullability is rejected everywhere", "statement": "CreateVector rejects every schema in which a nullable struct has a nullable child, wherever in the tree it occurs.", "quantifier": "all schema trees", "why_tests_cant": "unbounded trees; failing child need not be the first", "anchors": ["orc/api/type.go: verifySchema, CreateVector"]}
{"id": "C52", "title": "Batch vectors mirror the schema", "statement": "CreateVector yields a vector tree with one vector per (included) column, carrying the column's id, and room for RowSize rows in every leaf.", "quantifier": "all schema trees and include lists", "why_tests_cant": "unbounded trees", "anchors": ["orc/api/type.go: CreateVector, createVector"]}
{"id": "C53", "title": "Row counts add up", "statement": "After any sequence of Write calls and stripe rollovers, the NumberOfRows of the stripes add up to the rows handed to Write, and the footer total agrees.", "quantifier": "all batch sequences and stripe size limits", "why_tests_cant": "unbounded histories", "anchors": ["orc/stripe.go: write, flushOut, forward", "orc/writer.go: Write, Close, writeFileTail"]}
{"id": "C54", "title": "Stripes tile the file", "statement": "The first stripe starts right after the 3-byte magic, each next stripe starts where the previous ends, stream lengths inside a stripe add up to its data length, and content length is the total.", "quantifier": "all histories of stripe flushes", "why_tests_cant": "unbounded histories", "anchors": ["orc/stripe.go: flushOut, writeFooter, forward", "orc/writer.go: writeFileTail", "orc/stripe.go: stripeReader.init"]}
{"id": "C55", "title": "Stream offsets found by the reader are the writer's", "statement": "From the stream infos of a stripe footer the reader computes, for every stream, the offset at which the writer put it.", "quantifier": "all lists of streams", "why_tests_cant": "unbounded", "anchors": ["orc/stripe.go: newStripeReader, init", "orc/stripe.go: flushOut"]}
{"id": "C56", "title": "Reading batches delivers every row exactly once", "statement": "Calling Next until it reports the end delivers every row of the file once and in order.", "quantifier": "all row counts, stripe splits and batch sizes", "why_tests_cant": "row count × stripe split × batch size", "anchors": ["orc/reader.go: batchReader.Next", "orc/stripe.go: stripeReader.next"]}
{"id": "C57", "title": "The batch loop terminates", "statement": "The documented read loop `for !end { end = Next() }` terminates for every file and batch size.", "quantifier": "all row counts, stripe splits and batch sizes", "why_tests_cant": "nontermination is not testable", "anchors": ["orc/reader.go: batchReader.Next"]}
{"id": "C58", "title": "Seek positions at the requested row", "statement": "After Seek(n), Next continues with row n.", "quantifier": "all n, stripe splits and strides", "why_tests_cant": "unbounded", "anchors": ["orc/reader.go: batchReader.Seek", "orc/stripe.go: stripeReader.Seek", "orc/column/reader.go: seek"]}
{"id": "C59", "title": "Footer and postscript are found again", "statement": "Opening a file whose tail is footer, postscript and length byte recovers exactly that footer and postscript, whatever their sizes.", "quantifier": "all footers and files", "why_tests_cant": "footer size grows with columns and stripes", "anchors": ["orc/reader.go: extractFileTail", "orc/writer.go: writeFileTail"]}
{"id": "C60", "title": "A closed file can be opened", "statement": "After a successful Close the file can be opened and read, whatever rows were written, including none.", "quantifier": "all row histories", "why_tests_cant": "depends on whether the last row triggers a rollover", "anchors": ["orc/writer.go: Close", "orc/reader.go: newReader, initStripes"]}
{"id": "C61", "title": "Batches do not depend on what the vector held before", "statement": "Reading into a reused vector gives the same null flags and values as reading into a fresh one.", "quantifier": "all previous vector contents", "why_tests_cant": "unbounded histories of reuse", "anchors": ["orc/column/*.go: NextBatch", "orc/api/vector.go: Clear"]}
{"id": "C62", "title": "Every writable type is readable", "statement": "For every kind and encoding for which a column writer can be created, a column reader can be created, and unsupported kinds are refused with an error.", "quantifier": "all kinds × encodings", "why_tests_cant": "finite table, but exhaustive agreement is needed", "anchors": ["orc/column/package.go: NewReader, NewWriter"]}
{"id": "C63", "title": "Null structs null their children", "statement": "Reading a nullable struct marks every child value of a null row as null, at every nesting depth, and leaves other rows' values intact.", "quantifier": "all struct trees and null patterns", "why_tests_cant": "unbounded trees", "anchors": ["orc/column/struct.go: structReader.NextBatch, fillNulls"]}
{"id": "C64", "title": "Opening an empty file reports an error", "statement": "Opening a zero-length file returns an error.", "quantifier": "the empty file, for every reader option", "why_tests_cant": "boundary case not covered", "anchors": ["orc/reader.go: newReader, extractFileTail"]}
{"id": "C65", "title": "Floating point bytes follow the ORC format", "statement": "Every float32 and float64 is stored least significant byte first, so that other ORC readers see the same number.", "quantifier": "all bit patterns", "why_tests_cant": "2^32 and 2^64 patterns; the package's own reader hides a wrong order because it makes the same mistake", "anchors": ["orc/encoding/float.go: float.Encode, double.Encode, DecodeFloat, DecodeDouble"]}
{"id": "C66", "title": "Reading past the last row of a column is an error", "statement": "A batch that asks a column for more rows than were written to it makes NextBatch return an error; no row that was never written is delivered.", "quantifier": "all column types, all written rows, all splits of the reading into batches, all chunk sizes", "why_tests_cant": "The padding of the last boolean byte depends on the number of rows modulo 8, so a test sees the phantom rows only for some lengths.", "anchors": ["orc/column/byte.go: NextBatch", "orc/column/bool.go: NextBatch", "orc/encoding/bool.go: boolEncoder"]}
{"id": "C67", "title": "A table that was written can be read back", "statement": "For every flat schema with unique names (structs, nullable or not, around columns of types that can be read), every sequence of batches and every stripe size, NewWriter, Write and Close succeed, and NewReader, CreateBatchReader and repeated Next on the file deliver exactly the rows written, null structs included, restricted to the included columns, in order.", "quantifier": "All schemas, all batches, all options (chunk size, stripe size, row index), all batch sizes and included columns of the reader.", "why_tests_cant": "Files, schemas, chunk boundaries, stripe boundaries and batch sizes combine without bound; a test fixes one of each.", "anchors": ["orc/writer.go: NewWriter, Write, Close", "orc/stripe.go: write, flushOut, forward, stripeReader", "orc/reader.go: NewReader, CreateBatchReader", "orc/reader.go: Next"]}
{"id": "C69", "title": "A stripe ends with the row that fills it", "statement": "A stripe is closed exactly after the first row with which the bytes produced for its columns reach StripeSize; the rows of the stripes, in order, are the rows written, and the number of rows recorded for each stripe is the number of rows in it.", "quantifier": "All schemas, all batches, all stripe sizes, all stripes of a file.", "why_tests_cant": "Where a stripe ends depends on the state of all the encoders after every row; no finite set of tables covers it.", "anchors": ["orc/stripe.go: stripeWriter.write, size, forward", "orc/writer.go: Write, Close"]}
{"id": "C70", "title": "A closed file with rows can be read", "statement": "If Close succeeds after at least one row was written, CreateBatchReader succeeds on the file.", "quantifier": "All schemas, batches, stripe sizes.", "why_tests_cant": "The failure depends on the stripe size being reached with the very last row.", "anchors": ["orc/stripe.go: newStripeReader, stripeWriter.forward", "orc/writer.go: Close", "orc/reader.go: CreateBatchReader"]}
{"id": "C71", "title": "How rows are divided into batches does not matter", "statement": "Two clients that write the same rows, in whatever batches, produce the same file, byte for byte, or fail in the same way; what vectors hold beyond their length, or in rows marked null, does not reach the file.", "quantifier": "All schemas, all pairs of sequences of batches with the same rows, all options.", "why_tests_cant": "There are exponentially many ways to divide a table.", "anchors": ["orc/stripe.go: stripeWriter.write, writeValue", "orc/column: Write"]}
{"id": "C72", "title": "Byte run-length encoding is compact", "statement": "Encoding n bytes costs at most one extra byte per 128 bytes and one per Flush; n equal bytes cost two bytes per 130 of them (plus at most the rest).", "quantifier": "All byte sequences, all interleavings of Flush.", "why_tests_cant": "The worst case depends on how runs and literals alternate; there are 256^n inputs.", "anchors": ["orc/encoding/byte.go: Encode, Flush"]}
{"id": "C73", "title": "The statistics in the footer describe the table", "statement": "For every column the footer of a closed file gives the number of non-null values written to it over all batches and stripes, whether it may have nulls, for integers their minimum, maximum and sum, for booleans the number of true values; a reader returns these statistics.", "quantifier": "All schemas, all batches, all stripe sizes, all files that were closed.", "why_tests_cant": "The numbers are accumulated over all stripes, through flushes and resets of the column writers.", "anchors": ["orc/writer.go: writeFileTail, newWriter", "orc/column: GetStats", "orc/reader.go: GetStatistics, NumberOfRows"]}
{"id": "C74", "title": "A file that does not start with the magic is rejected", "statement": "NewReader rejects files whose first bytes are not ORC.", "quantifier": "All files with a sound tail, all first three bytes.", "why_tests_cant": "There are 2^24 headers, and the rest of the file is arbitrary.", "anchors": ["orc/reader.go: extractFileTail, ensureOrcFooter (never called)", "orc/writer.go: writeHeader"]}
{"id": "C68", "title": "Dictionary string columns of other writers can be read", "statement": "A string column with dictionary encoding, laid out as the ORC specification says, delivers for every non-null row the string its index stands for, in any mix of NextBatch and Skip.", "quantifier": "all dictionaries, indices, null patterns, chunkings and sequences of calls", "why_tests_cant": "the dictionary is loaded lazily by the first batch, possibly after skips; unbounded", "anchors": ["orc/column/string.go: StringDictionaryV2Reader"]}
{"id": "C75", "title": "Columns of other writers can be read", "statement": "A column laid out as the ORC specification says (byte runs, integer runs of all four kinds, IEEE floats least significant byte first, present stream, chunks) delivers the values the specification assigns to it, in any mix of NextBatch and Skip.", "quantifier": "all well-formed streams, chunkings, positions in the file, null patterns and sequences of calls", "why_tests_cant": "files of other writers use blocks this writer never produces; unbounded", "anchors": ["orc/column/*.go: NextBatch, Skip", "orc/encoding/*.go: Decode"]}
{"id": "C76", "title": "Reading the rest of a stream at once", "statement": "GetAllUInts returns exactly the values of an unsigned stream that have not been read yet; reading strings at once by their lengths returns all strings.", "quantifier": "all value sequences, chunkings and read counts", "why_tests_cant": "unbounded", "anchors": ["orc/stream/int.go: GetAllUInts", "orc/stream/string.go: getAllString"]}
{"id": "C77", "title": "The date encoder encodes dates", "statement": "Dates given to the encoder returned by NewDateV2Encoder read back through its decoder.", "quantifier": "all dates and histories", "why_tests_cant": "all histories", "anchors": ["orc/encoding/time.go: dateV2Encoder"]}
{"id": "C78", "title": "The size a column reports is the size it writes", "statement": "After Flush, Size() of a column writer is exactly the number of bytes WriteOut emits, and the lengths in GetStreamInfos add up to it.", "quantifier": "all column types, options and histories of the writer", "why_tests_cant": "unbounded", "anchors": ["orc/column/*.go: Size, Flush, WriteOut, GetStreamInfos", "orc/stream/writer.go: Size, Flush, WriteOut"]}
{"id": "C79", "title": "A column takes only values of its Go type", "statement": "Write of a non-null value whose dynamic type is not the column's Go type fails; a file that was written and closed holds only values of its columns' types.", "quantifier": "all types, values and histories", "why_tests_cant": "all dynamic types in all states; over whole files unbounded", "anchors": ["orc/column/*.go: Write", "orc/encoding/*.go: Encode"]}
{"id": "C80", "title": "Damaged columns do not crash or hang the program", "statement": "Whatever the bytes of a file, every sequence of NextBatch, Skip and SeekStride calls on a column returns or reports an error; it neither panics nor goes on for ever.", "quantifier": "all file contents, positions and lengths of streams, codecs, row indexes with entries of the right size, and call sequences", "why_tests_cant": "the space of damaged files is unbounded; fuzzing only samples it", "anchors": ["orc/column/*.go: InitStream NextBatch Skip SeekStride", "orc/stream/reader.go: ReadByte Read readAChunk seek", "orc/encoding/*.go: Decode*"]}
{"id": "C81", "title": "Struct and dictionary columns keep their flags, statistics and row indexes", "statement": "The column of a nullable struct keeps which of its rows are null: the present stream of every stripe gives back the flags that were written. Its statistics count the rows that are not null, its row index has an entry for every rowIndexStride rows with the position of the present stream there, and the bytes on disk are the length of the present stream. The statistics of a dictionary string column give the number of strings, the sum of their lengths and their least and greatest.", "quantifier": "all rows, all histories of write, flush, write-out and reset calls, all stripes, all compression settings, all strides", "why_tests_cant": "The code counts null rows as values of a struct, counts nothing for a struct that is not nullable, starts the least string at the empty one, and carries flag bits from one stripe into the next; which histories are affected can only be said for all of them.", "anchors": ["orc/column/struct.go: structWriter", "orc/column/string.go: stringDictionaryV2Writer.Write", "orc/column/writer.go: writer.reset"]}
{"id": "C82", "title": "SeekStride finds row groups in files of other writers", "statement": "In a file laid out as the ORC specification says, whose row index gives for every row group where its first row is in each stream, SeekStride(k) goes to the first row of row group k: after it, whatever batches were read, rows skipped and row groups sought before, reading delivers the rows of row group k and those after it.", "quantifier": "all column types but timestamps, dictionaries and nested ones, all contents laid out as the specification says, all places of the streams in the file, both compression settings, all row indexes with right entries, all sequences of NextBatch, Skip and SeekStride calls", "why_tests_cant": "Whether the numbers of an index entry lead to the right row depends on runs, blocks, chunks and flags of all the rows before it; the repository's own files have an index of a different meaning, so its tests never see this one.", "anchors": ["orc/column/reader.go: getStridePositions", "orc/column/*.go: SeekStride", "orc/stream/*.go: Seek", "orc/column/decimal.go: SeekStride"]}
{"id": "C83", "title": "A column reader takes exactly the streams its type has", "statement": "When a stripe is opened, a stream listed for a column that is read is accepted if the ORC format has such a stream for the column's type and encoding (the null flags only if the column has nulls), and refused with an error otherwise; and a column can be read only if none of its type's streams is missing.", "quantifier": "every column type, with and without nulls, every list of streams, every stripe footer", "why_tests_cant": "The footer of a stripe comes from a file another program may have written: any list of streams can occur, and each column type has its own acceptance code.", "anchors": ["orc/column/*.go:InitStream", "orc/stripe.go:stripeReader.init"]}
{"id": "C84", "title": "The data streams of any stripe are looked for where they are", "statement": "For every stripe laid out as the format prescribes (index streams, then data streams, in the order of the footer), the reader looks for each data stream of a column that is read at the place where it is.", "quantifier": "every list of index and data streams, every column, every file", "why_tests_cant": "The footer may list any number of streams of any column in the index area, among them kinds this library never writes.", "anchors": ["orc/stripe.go:stripeReader.init"]}
{"id": "C85", "title": "Files of other writers can be read", "statement": "For every file laid out as the ORC specification says, of which this library claims to read the column types and the compression, opening it succeeds and reading any choice of its columns with batches of any size delivers the rows that are stored in it, in order.", "quantifier": "every such file: any number of stripes, any encoding choices its writer made (blocks, runs, chunks, order of the streams, flags left out where nothing is null), every choice of columns, every batch size", "why_tests_cant": "Other writers choose freely among the encodings, the order of streams and which optional streams to write; tests read a handful of files.", "anchors": ["orc/reader.go:NewReader", "orc/reader.go:extractFileTail", "orc/stripe.go:stripeReader.init", "orc/stripe.go:stripeReader.next", "orc/column/struct.go:NextBatch"]}
{"id": "C86", "title": "Seeking in files of other writers", "statement": "In a file of any writer laid out as the ORC specification says: (1) the column readers of a stripe with row indexes, under any sequence of NextBatch, Skip and SeekStride within the stripe, all move together: SeekStride(k) puts every chosen column at the first row of the same row group and what is read afterwards are the rows from there on; (2) Seek(row) of a batch reader followed by Next delivers the rows of the file from that row on, and Seek of a row that does not exist is an error.", "quantifier": "All files (FileLaid), schemas, choices of columns, batch sizes, rows, and all sequences of calls on the readers of a stripe", "why_tests_cant": "Which row is reached depends on the stride, on the stripe boundaries, on the positions in all indexes, and on the history of calls; tests seek to a few rows of a few files.", "anchors": ["orc/reader.go:batchReader.Seek", "orc/stripe.go:stripeReader.Seek", "orc/stripe.go:stripeReader.Next", "orc/column/struct.go:structReader.SeekStride", "orc/column/struct.go:structReader.Skip", "orc/column/reader.go:getStridePositions"]}
{"id": "C87", "title": "Opening any bytes as a file", "statement": "NewReader, given any bytes as a file, returns: it opens the file exactly if the bytes end in a footer (within the last 16384 bytes), a postscript and its length, these parse, the file has rows, the footer is stored or deflated as the postscript says, and the types refer only to types and field names that are there and are at least as many as the statistics. It panics exactly for four causes (empty file, postscript longer than the file, footer starting more than 16384 bytes before the end, unsound types), and reports an error otherwise.", "quantifier": "all byte sequences, all codecs and parsers of protobuf messages", "why_tests_cant": "Damaged or hostile files cannot be enumerated; a corpus tells nothing of the next file.", "anchors": ["orc/reader.go: newReader, extractFileTail, unmarshallSchema, setHasNulls", "orc/common/misc.go: DecompressChunks"]}
{"id": "C88", "title": "Reading any file comes to an end", "statement": "Whatever bytes a file has, once NewReader has opened it, CreateBatchReader returns, and every sequence of Next and Seek calls returns, provided each type's children have higher ids (as the format wants) and the vectors given to Next do not expect nulls of a struct where the file has none.", "quantifier": "all byte sequences, all codecs and parsers, all sequences of calls with all batches", "why_tests_cant": "Sequences of calls on damaged files are unbounded; a test that does not hang says nothing about the next file.", "anchors": ["orc/reader.go: CreateBatchReader, initStripes, batchReader.Next, batchReader.Seek", "orc/stripe.go: stripeReader.init, next, Seek", "orc/column/reader.go"]}
{"id": "C89", "title": "Row indexes of a written file", "statement": "In every file that was closed, the index area of each stripe has, if WriteIndex is set, the row indexes of all columns in the order of the columns, as protobuf messages and not compressed, and is empty otherwise; the row index of a column is the one its writer has collected from exactly the column's values in the rows of the stripe. The footer of the stripe lists none of them.", "quantifier": "all schemas, batches, stripe sizes and options; all codecs", "why_tests_cant": "Which rows a group covers depends on the interleaving of all columns, stripe size and batches.", "anchors": ["orc/stripe.go: stripeWriter.flushOut, writeFooter", "orc/column/writer.go: GetIndex"]}
{"id": "C90", "title": "Tables with lists and maps", "statement": "A file of any writer that has a table with columns of values, of lists of values and of maps of values, stored as the ORC specification describes, is read as follows, for any choice of columns. No call of Next fails, and the loop that calls Next until it reports the end ends exactly if at most one stripe before the last loses its last row. The rows of list and map columns say in every batch how many elements each list and map has, and which are null. If the batches have one row each, the child vectors have the elements, in order, with their nulls, so that the client has the table (but for the rows lost at the end of stripes). If batches have several rows this is false: the child vectors then have the elements of the last row only.", "quantifier": "all tables with such columns, all contents, all divisions into stripes, all batch sizes and choices of columns, all compressions of the streams", "why_tests_cant": "Which elements belong to a row depends on all rows before it, and on the chunks, runs and stripes they are in.", "anchors": ["orc/column/list.go: listV2Reader.NextBatch, InitStream, InitChildren", "orc/column/map.go: mapReader.NextBatch", "orc/stripe.go: stripeReader.init, Next", "orc/reader.go: CreateBatchReader, Next"]}
{"id": "C91", "title": "Tables with nested collections", "statement": "Reading a file of a conforming writer whose table has lists and maps nested to any depth inside structs of structs, and string columns with a dictionary, no call fails; the documented loop ends exactly if at most one stripe before the last loses its last row; and what the client has then are the rows of the table restricted to the chosen columns, except the lost rows: with any batch size the values and the numbers of elements of lists and maps, and with batches of one row the elements, too (of elements that are lists or maps themselves, the numbers of their elements).", "quantifier": "All schemas of values, lists and maps nested to any depth in structs nested to any depth, all choices of columns, all files (any compression, chunking, runs, number and size of stripes, dictionaries), all tables, all batch sizes.", "why_tests_cant": "Depth of nesting, sizes, run and chunk boundaries inside each stream and combinations of nulls are unbounded; a test sees one shape of table.", "anchors": ["orc/column/list.go: NextBatch", "orc/column/map.go: NextBatch", "orc/column/struct.go: NextBatch", "orc/column/string.go: stringDictV2Reader", "orc/stripe.go: setVectorSize, createColumnReader", "orc/api/type.go: CreateVector"]}
{"id": "C92", "title": "Reads do not depend on how they are served", "statement": "What the library takes from a file is the same for every way in which the operating system splits the reads and for every amount of room in the buffer that is read into: exactly the bytes asked for, or an error if there are not so many. A file in memory is a file, too: what was written to it in any pieces is there in order if it fits, a write that does not fit is reported, and reading gives what reading a file with these bytes gives.", "quantifier": "All file contents, offsets and lengths, all schedules of short reads, all free capacities at each call, all sequences of writes, all sizes of the buffer in memory.", "why_tests_cant": "Short reads happen rarely and only on some systems; the number of schedules is exponential in the length.", "anchors": ["orc/io/file.go: osFile, MockFile", "orc/stream/reader.go: readAChunk", "orc/reader.go: extractFileTail", "orc/stripe.go: readFooter"]}
{"id": "C93", "title": "Row groups and Seek in tables with lists, maps and dictionaries", "statement": "In a file of any ORC writer whose table has structs, lists, maps and dictionary columns, going to a row group through the row indexes and reading on delivers the rows from there, each list and map with its own elements; and Seek(row) makes the next batch start at that row. (As the code stands: SeekStride(k) goes to row group k-1; SeekStride(0) fails if a date is read; Skip goes wrong in maps, so Seek in a table with maps shows entries of other rows; Seek only ever moves the readers of the first stripe, to row modulo the stride.)", "quantifier": "every schema, table, stripe layout, compression chunking, row index, choice of columns, batch size and sequence of NextBatch, Skip and SeekStride calls within a stripe; every row for Seek", "why_tests_cant": "whether the children of a list are at the right element depends on the lengths of all rows before it, on nulls, on where chunks and runs end and on the history of calls; tests try a few positions in one file", "anchors": ["orc/column/list.go: SeekStride, Skip", "orc/column/map.go: SeekStride, Skip", "orc/column/struct.go", "orc/reader.go: Seek", "orc/stripe.go: Seek"]}
{"id": "C94", "title": "Damaged files: simple flat tables are read without a crash", "statement": "Whatever the bytes of a file are: if it opens and its types are a struct with fields of tinyint, boolean, float and double only, then CreateBatchReader panics only if the footer of some stripe can be decoded and leaves out an encoding or names a stream of a column that does not exist; and on a batch reader that was made, if every stripe footer names the data of the fields that are read and the file has a stripe or at most one row, every sequence of calls of Next (with vectors made by CreateVector for the table) and of Seek (if the file has a row index stride) returns or reports an error: no panic, no call that does not return. With other kinds (bigint), other footers or other vectors this is false; and a file with two or more rows but no stripes makes the second Next panic, after a first one that returns no rows and says there are more.", "quantifier": "all byte strings, all external decoders (protobuf, decompression), all batch options that include the root, all sequences of calls with all vectors of the table's shape", "why_tests_cant": "damage can be anywhere in a file; tests try a few damaged files", "anchors": ["orc/reader.go: CreateBatchReader, Next, Seek", "orc/stripe.go: init, next, prepareVector, setVectorSize", "orc/column/struct.go: NextBatch, Skip, SeekStride, fillNulls", "orc/column/byte.go, bool.go, float.go"]}
{"id": "C95", "title": "A program that stops while writing", "statement": "If a program stops at any moment before Close has returned, what is on the disk is the beginning of the file it would have made: it starts with ORC and has all the stripes that were finished before the call in which the program stopped, each whole and at its place, and only rows of the unfinished stripe are missing (all rows, if no row filled a stripe); and opening that file reports an error instead of showing a table.", "quantifier": "all schemas, options, batches, all later batches, and all points at which the program stops (between calls, or after any byte of what a Write or Close adds)", "why_tests_cant": "crash points are as many as the bytes of a file; tests close their files", "anchors": ["orc/writer.go: newWriter, Write, Close, writeFileTail", "orc/stripe.go: write, flushOut, writeFooter, forward", "orc/reader.go: newReader, extractFileTail"]}
{"id": "C96", "title": "A Write that reports an error", "statement": "If Write reports an error because a value of the batch has the wrong Go type, the batch has had no effect: a client that goes on writing and closes the file has the rows of the calls that went well, and no others, and the columns belong together row by row.", "quantifier": "all schemas, options, batches, positions of the wrong value, and all sequences of calls that go on after errors", "why_tests_cant": "an error can come at any row and column of any batch, before or after stripes are finished; what it leaves behind shows only when the file is read much later", "anchors": ["orc/writer.go: Write", "orc/stripe.go: write, writeValue", "orc/column/float.go, string.go, binary.go: Write"]}
{"id": "C97", "title": "Goroutines that read one file", "statement": "Goroutines that read one file at the same time, each with a batch reader of its own, do not disturb each other: each gets what it would get alone, whatever the order of their calls on the file, and however the operating system splits the reads; this includes goroutines that create their batch readers from one open file at the same time.", "quantifier": "all files, any number of goroutines, each with a batch reader of its own and any sequence of Next and Seek that may depend on what was read, more generally all programs that read from streams, all schedules of their calls on file handles, all ways in which the operating system splits reads", "why_tests_cant": "schedules are countless, and the wrong ones are rare", "anchors": ["orc/stream/reader.go: ReadByte, Read, seek, readAChunk", "orc/io/file.go: osFile", "orc/column/*.go: InitStream", "orc/stripe.go: readFooter", "orc/reader.go: CreateBatchReader"]}
{"id": "C98", "title": "Next and Seek can be called in any order", "statement": "After Seek(row), the calls of Next hand over the rows from this row to the end of the file, in order and without others, and then report the end; this holds for every sequence of calls of Next and Seek.", "quantifier": "every file of a table with lists and structs, in any number of stripes and without row indexes needed, every batch size and every finite sequence of calls of Next and Seek", "why_tests_cant": "A test makes a few calls; the property ranges over every interleaving of the two calls, every row and every division of the rows into stripes.", "anchors": ["orc/reader.go: BatchReader.Next, BatchReader.Seek", "orc/stripe.go: stripeReader.Next, stripeReader.Seek, prepareVector"]}
{"id": "C99", "title": "Which other columns are read does not matter", "statement": "A program that opens a file, reads some of its columns and makes calls of Next and Seek finds the same rows in these columns, and is told the same by every call, as a program that makes the same calls and reads more columns. If it fails, the program that reads more columns fails too.", "quantifier": "every content of the file, every table of structs, lists, maps and leaves with any nesting and any nulls, every two choices of columns one of which contains the other (lists and maps with what is in them; of structs at any depth some of the fields), every batch size and every finite sequence of calls of Next and Seek", "why_tests_cant": "A test compares two choices on a few files; the property ranges over every pair of choices, every file, including damaged ones and those of other writers, and every history of calls.", "anchors": ["orc/reader.go: CreateBatchReader, BatchReader.Next, BatchReader.Seek", "orc/stripe.go: stripeReader.init, prepareVector, setVectorSize", "orc/api/type.go: CreateVector", "orc/column/struct.go: reader"]}
{"id": "C100", "title": "Batches that do not fit the table", "statement": "Write takes every row of a batch or reports an error: a batch whose columns have different numbers of rows, or that has no vector for a column of the table, is refused.", "quantifier": "every table, every state of the writer, every options and every batch, whatever its vectors are", "why_tests_cant": "A test writes a few malformed batches; the property is about every batch a program can put together, at every point of a history of writes.", "anchors": ["orc/stripe.go: stripeWriter.write, writeValue", "orc/api/vector.go: ColumnVector.Len", "orc/writer.go: Write"]}
{"id": "C101", "title": "Files that fail", "statement": "When the file a writer writes to reports an error at any Write, after any number of bytes, or at Close, the program gets an error; when it gets none, the file is complete. After an error the file has the beginning of what it would have got, and a call that succeeds later makes a file that is right.", "quantifier": "every table, options and list of batches, every answer of the file to every one of its Writes, and every outcome of its Close", "why_tests_cant": "A test injects a failure at a few points; there is a point for every byte of every Write, and the claim is about what every call afterwards says.", "anchors": ["orc/writer.go: newWriter, Write, Close, writeHeader, writeFileTail", "orc/stripe.go: stripeWriter.write, flushOut, writeFooter", "orc/stream/writer.go: WriteOut", "orc/column/package.go: Writer.WriteOut (every implementation)", "orc/io/file.go: File"]}
{"id": "C102", "title": "Columns of nulls without data", "statement": "In a file of any writer a column that is null in all rows of a stripe may have a stream of flags and nothing else: it is read as nulls, with the values of the other columns, by any number of calls of Next with batches of any size; Skip and SeekStride work too.", "quantifier": "every file laid out as the ORC specification says (C85), any number of stripes, rows and columns, every type, every choice of columns and size of batches", "why_tests_cant": "A test needs files of other writers and has one batch size and one place of the empty column; whether the nil reader is ever used depends on every flag.", "anchors": ["orc/column/package.go: NewReader", "orc/column/int.go: intV2Reader.NextBatch, Skip, SeekStride (and the other types)", "orc/column/string.go: stringDictV2Reader.NextBatch", "orc/stripe.go: stripeReader.init"]}
{"id": "C103", "title": "What Next delivers has the Go type of its column", "statement": "Whatever the bytes of a file are: as long as no call fails, after every Next the vectors are those of the columns that were asked for, every row that is not null holds a value of the Go type of its column (bool, byte, int16, int32, int64, float32, float64, string, bytes, date, timestamp, decimal; for a list the number of its elements, for a map that of its entries, nothing for a struct), and a null row holds nothing or such a value.", "quantifier": "all files, all environments (compression, protobuf and floating point libraries), every table without unions, lists with one and maps with two children, every choice of columns and size of batches, every sequence of Next and Seek", "why_tests_cant": "A client uses type assertions on the values, which panic on the first wrong one; the files that reach a reader are not only those a test has, and a vector is used again for every batch.", "anchors": ["orc/reader.go: batchReader.Next, Seek", "orc/stripe.go: stripeReader.Next, prepareVector", "orc/column/*.go: NextBatch", "orc/api/vector.go: ColumnVector, Clear", "orc/api/type.go: CreateVector"]}
{"id": "C104", "title": "Fields of structs inside lists and maps can be read", "statement": "When a list has structs as elements, or a map as keys or values, Next delivers the fields of these structs like those of other structs.", "quantifier": "all files, all tables without unions, every choice of columns and size of batches, every sequence of Next and Seek", "why_tests_cant": "The elements of a list arrive in vectors that are sized while reading, at any depth; that there is no file and no sequence of calls for which it works is not a finding of a test.", "anchors": ["orc/column/list.go: listV2Reader.NextBatch", "orc/column/map.go: mapV2Reader.NextBatch", "orc/column/struct.go: structReader.NextBatch", "orc/stripe.go: prepareVector"]}
{"id": "C105", "title": "Bytes of columns that are not read do not matter", "statement": "When two files have the same tail and the same stripe footers and agree on the streams of the columns a program asks for, the program finds the same values in both, or gets the same error at the same call, whatever the other bytes of the files are.", "quantifier": "all pairs of files, all environments (compression, protobuf and floating point libraries), every schema and choice of columns, every size of batches, every sequence of Next and Seek", "why_tests_cant": "Which bytes a reader looks at is not seen in a result; a test would have to change every byte of every other column of every file.", "anchors": ["orc/reader.go: NewReader, CreateBatchReader, batchReader.Next, Seek", "orc/stripe.go: newStripeReader, initStreams", "orc/stream/reader.go: Read, ReadByte, Seek, readAChunk", "orc/column/*.go: InitStream, Next, NextBatch, Skip, SeekStride"]}
{"id": "C106", "title": "The bytes of a column depend on nothing but this column and the ends of the stripes", "statement": "When two files are written with the same options and a column has the same schema and the same values in both, its streams have the same bytes in every stripe up to which the stripes of both files end at the same rows, whatever the other columns are and hold, however the rows were put into batches and whatever is written later; and its statistics are the same when all stripes end at the same rows. Where the stripes end does depend on the other columns.", "quantifier": "all environments (compression, protobuf and floating point libraries), all writer options, all pairs of schemas that have the column at the same place, all sequences of batches of both files, every stripe", "why_tests_cant": "A test compares a few pairs of files; that no value of another column, of any type, ever gets into the streams of this one ranges over all tables.", "anchors": ["orc/writer.go: NewWriter, Write, Close", "orc/stripe.go: write, writeValue, flushOut, forward", "orc/column/*.go: Write, Flush, WriteOut, Reset, GetStreamInfos, GetStats"]}
{"id": "C107", "title": "The bytes of a file determine its layout", "statement": "A file written by this library can be taken apart in only one way: if two readings of the same bytes as magic, stripes with their streams and footers, file footer and postscript both agree with the lengths, offsets and row counts recorded in them, they have the same stripes, the same streams with the same contents, the same footers and the same postscript, even if they assume different schemas.", "quantifier": "every pair of layouts (schemas, stripes, streams, footers, postscript) of the same bytes, every lossless compressor and message codec, every chunk size", "why_tests_cant": "a test can take one file apart in the way it was put together; that no other way exists ranges over all pairs of tables", "anchors": ["orc/writer.go: writer.Close, writeFileTail", "orc/reader.go: extractFileTail"]}
{"id": "C108", "title": "No two tables have the same file", "statement": "If two sequences of batches written with the same schema and options give the same bytes, they hold the same rows in the same order, null for null and value for value, however the rows were cut into batches. Stated for tables the library can read back.", "quantifier": "every schema of supported columns, all pairs of batch sequences, every compressor and message codec that loses nothing, every stripe size and chunk size", "why_tests_cant": "injectivity of the whole writer is a statement about all pairs of tables", "anchors": ["orc/writer.go: NewWriter, Write, Close", "orc/reader.go: NewReader, CreateBatchReader, Next"]}
{"id": "C109", "title": "A file that is read and written again", "statement": "A program that reads a file with all its columns, hands the vector Next fills to Write of a new file, and closes it when Next reports the end, produces with the same options the same bytes, and with other options the file the original program would have written with these.", "quantifier": "every table, batching of the writer, batch size of the copying program, number of loop turns, stripe layout, options of the copy", "why_tests_cant": "a test copies one table with one batch size; the claim relates reader and writer for all of them", "anchors": ["orc/reader.go: Next", "orc/writer.go: Write, Close", "orc/api/vector.go: ColumnVector"]}
{"id": "C110", "title": "Closing a batch reader gives back the files it opened", "statement": "CreateBatchReader opens the file once more for every stream of every column it reads. Closing the batch reader closes each of these files exactly once and closes nothing else, for every file it was created from and every choice of columns, so that a program that opens and closes batch readers does not run out of file descriptors.", "quantifier": "every file (of this library or of another writer), every tree of types, every choice of columns, every list of streams in the stripe footers, every number of stripes", "why_tests_cant": "a test does not see descriptors that stay open; which ones do depends on the types, the choice of columns and the streams a stripe lists, for all of which the claim is made", "anchors": ["orc/reader.go: batchReader.Close, CreateBatchReader, initStripes", "orc/stripe.go: stripeReader.Close, init", "orc/column/*.go: InitStream, Close", "orc/stream/*.go: Close", "orc/io/file.go: Clone"]}
{"id": "C111", "title": "ReadChunks undoes compression in chunks", "statement": "ReadChunks, given the bytes of chunks held in memory, the compression and the chunk size they were written with, returns the bytes that were compressed; given anything that is not a sequence of complete chunks it returns an error and never bytes that were not passed to it. It returns for every input.", "quantifier": "every byte slice and every content of its array behind it, every chunk size, every compression, every sequence of chunks, every decompressor that keeps the promises of io.Reader", "why_tests_cant": "how much one Read of a decompressor delivers depends on the size of the chunk and on the library, and what lies behind a slice depends on the caller's allocation; tests use small chunks in slices of their own", "anchors": ["orc/reader.go: ReadChunks", "orc/common/misc.go: CompressingAllInChunks, DecompressChunks"]}
{"id": "C112", "title": "ReadVUint reads base-128 numbers", "statement": "ReadVUint reads back every uint64 that was written as a base-128 varint, whatever follows it, and consumes exactly its bytes. It reports an error for a number that is cut, for one that does not fit 64 bits and whenever the reader reports one, and it returns for every reader.", "quantifier": "every uint64, every input, every io.ByteReader (every sequence of bytes and errors it may return)", "why_tests_cant": "the claim is about all readers and all 2^64 numbers; what a reader returns together with an error is left open by its interface, so a test with one reader does not settle it", "anchors": ["orc/encoding/package.go: ReadVUint"]}
{"id": "C113", "title": "Float64 of a decimal is its number", "statement": "Decimal64.Float64 returns, up to rounding, the number the decimal stands for: its precision divided by ten to the power of its scale. The sums in the statistics of decimal columns are sums of these numbers.", "quantifier": "every precision and every scale (64 bits)", "why_tests_cant": "a test checks a few decimals, and those of scale 0 agree; the claim is about all of them", "anchors": ["orc/api/vector.go: Decimal64.Float64", "orc/column/decimal.go: Write (Sum of the statistics)"]}
{"id": "C114", "title": "The day stored for a time is the one it falls on", "statement": "A Date is made from any time.Time. The day that ToDays gives, and a date column stores, is the day (UTC) the time falls on, and FromDays of it is the midnight that day begins with.", "quantifier": "every time, in nanoseconds", "why_tests_cant": "times before 1970, times that are not midnights and times far away are each their own case, and there are unboundedly many of them", "anchors": ["orc/api/vector.go: Date, ToDays, FromDays"]}
{"id": "C115", "title": "Compression in chunks adds at most three bytes per chunk", "statement": "Whatever the compressor does, compressing bytes in chunks writes as few chunks as the chunk size allows (one for no bytes) and makes them at most three bytes per chunk longer.", "quantifier": "every byte string, every chunk size from 1, every compressor (nothing is assumed about it)", "why_tests_cant": "the worst case depends on the compressor and on the input; a test shows the sizes of its own inputs", "anchors": ["orc/common/misc.go: CompressingAllInChunks, CompressingChunks, CompressingLeft"]}
{"id": "C116", "title": "Encoded integers take a bounded number of bytes each", "statement": "Whatever values are encoded and whenever Flush is called, an encoder of unsigned integers writes at most ten bytes for each value given to it, and an encoder of signed integers at most twelve; values still pending are paid for.", "quantifier": "every history of Encode and Flush calls that succeeds, signed or not, with any number of values between flushes", "why_tests_cant": "the worst case is over all value sequences and block choices, among them pending values that grow past one block; a test shows the sizes of its own inputs", "anchors": ["orc/encoding/int.go: intRLV2Encoder, Encode, Flush, write, writeDirect, writeDelta, tryPatch, writePatch, writeShortRepeat"]}
{"id": "C117", "title": "Encoded booleans take a byte for eight, and little more", "statement": "Every history of booleans and Flush calls is accepted, and what is written for it has at most (values + 7*flushes)/8 bytes, plus one byte in 128 of them, plus one byte for each Flush.", "quantifier": "every history of Encode and Flush calls on an encoder of booleans, of any length", "why_tests_cant": "the bound is over all histories of two nested encoders that buffer separately", "anchors": ["orc/encoding/bool.go: boolRunLength, Encode, Flush", "orc/encoding/byte.go: byteRunLength"]}
{"id": "C118", "title": "A column of equal integers is small", "statement": "Any number of equal integers, of any value, is written in at most eleven bytes for every 512 of them and 26 bytes for the rest. (As the code stands: true unless there are more than ten and the value needs more than 56 bits, 55 and a sign for signed ones; then the encoder panics.)", "quantifier": "every int64 and uint64 value, every number of copies", "why_tests_cant": "the number of copies is unbounded and the limit on the value depends on the width of a scratch buffer", "anchors": ["orc/encoding/int.go: Encode, Flush, write, writeDelta, writeShortRepeat, writeDirect, getRepeats"]}
{"id": "C119", "title": "Decoding needs memory in proportion to its input", "statement": "Whatever the bytes, damaged or hostile, one call of a decoder returns at most 130 bytes, 1040 booleans or 512 integers, and decoding a whole stream returns at most 65 bytes, 520 booleans or 128 integers for each byte of it. No smaller factors hold.", "quantifier": "every sequence of bytes, whether or not an encoder could have written it; for sharpness, streams of every length", "why_tests_cant": "the input is arbitrary and unbounded; a test can try a few corrupt streams and cannot rule out one that expands without limit", "anchors": ["orc/encoding/int.go: DecodeInt, DecodeUInt, decode, readPatched, readBits", "orc/encoding/byte.go: DecodeByteRL", "orc/encoding/bool.go: DecodeBools, DecodeBoolsFromByte"]}
{"id": "C120", "title": "Decimal mantissas are written in the fewest bytes", "statement": "Whatever the history of Encode and Flush calls, the bytes the encoder of decimal mantissas writes are no more than those of any other byte string from which the decoder reads the same values. A value takes at most ten bytes, and fits k+1 < 10 bytes exactly if it lies between -2^(7k+6) and 2^(7k+6)-1.", "quantifier": "every list of int64 values, every history of calls, every competing byte string", "why_tests_cant": "it compares with every byte string a decoder accepts, and the decoder accepts unboundedly many redundant ones", "anchors": ["orc/encoding/int.go: varint64Encoder.Encode, varint64Encoder.Flush, DecodeVarInt64"]}
{"id": "C121", "title": "Floating point data that is copied keeps its bytes", "statement": "From any bytes, n floats (doubles) can be read exactly if there are 4n (8n) bytes, otherwise the end of the stream is reported; and writing the values read, with Flush calls anywhere, gives exactly the bytes they were read from, whatever writer made them, not-a-numbers and their payloads included.", "quantifier": "every sequence of bytes, every number of values, every placement of Flush calls", "why_tests_cant": "there are 2^32 and 2^64 bit patterns and unboundedly many sequences, and the values other writers stored are unknown", "anchors": ["orc/encoding/float.go: DecodeFloat, DecodeDouble, float.Encode, double.Encode"]}
{"id": "C122", "title": "A stream that is cut short gives its first values", "statement": "However a readable encoding of bytes, booleans or integers is cut, calling the decoder until it stops delivers first values of the whole, at least all those of the blocks before the cut, and ends normally or by reporting the end of the stream: no wrong value, no other error, no panic, no endless loop.", "quantifier": "every readable byte stream, whoever wrote it, and every place to cut it", "why_tests_cant": "streams and cuts are unbounded; a cut inside a block leaves bytes no writer produces", "anchors": ["orc/encoding/int.go: DecodeInt, DecodeUInt, decode", "orc/encoding/byte.go: DecodeByteRL", "orc/encoding/bool.go: DecodeBools"]}
{"id": "C123", "title": "One call of a decoder needs a bounded number of bytes", "statement": "A call of a decoder that has 129 bytes at hand (bytes, booleans), 4356 (integers), 10 (decimal mantissas), 4 (floats) or 8 (doubles) never looks beyond them, whatever they are: what follows changes neither its values nor its error, nor what it consumes.", "quantifier": "every sequence of bytes, valid or not, and everything that may follow", "why_tests_cant": "the bytes are arbitrary; a test cannot show that no header makes a decoder ask for more", "anchors": ["orc/encoding/int.go: DecodeInt, DecodeUInt, decode, readPatched, readBits, DecodeVarInt64", "orc/encoding/byte.go: DecodeByteRL", "orc/encoding/bool.go: DecodeBools", "orc/encoding/float.go: DecodeFloat, DecodeDouble"]}

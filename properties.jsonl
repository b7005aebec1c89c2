{"id": "C01", "title": "Lossless JPEG round trip", "statement": "Encoding an image with the lossless-JPEG compressor and decoding the resulting byte string with the lossless-JPEG decompressor returns exactly the input samples.", "quantifier": "every width, height, component count 1..4, predictor 1..7, bit depth the decoder accepts (10..16), zero point transform, and every sample array", "why_tests_cant": "the space of images, Huffman tables and bit alignments is unbounded; a test fixes one image", "anchors": ["rawler/src/ljpeg92.rs: LjpegCompressor::new, encode, write_header, write_body, ljpeg92_diff", "rawler/src/decompressors/ljpeg/mod.rs: LjpegDecompressor::new, decode_leaf", "rawler/src/decompressors/ljpeg/decompressors.rs", "rawler/src/decompressors/ljpeg/huffman.rs", "rawler/src/pumps.rs: BitPumpJPEG"]}
{"id": "C02", "title": "Lossless DNG conversion preserves pixels", "statement": "Splitting a raw image into 256x256 tiles, compressing each tile, decoding the tiles, reassembling them and cropping to the image size yields the original pixels, for mosaic and multi-component images and for every predictor.", "quantifier": "every image size (including sizes that are not tile multiples), component count, bit depth 10..16, predictor 1..7", "why_tests_cant": "boundary tiles, padding and line-merge realignment interact; tests sample a few sizes", "anchors": ["rawler/src/dng/writer.rs: dng_put_raw_ljpeg", "rawler/src/tiles.rs", "rawler/src/decoders/mod.rs: decode_tiles, plain_image_from_ifd"]}
{"id": "C03", "title": "Huffman tables are always valid", "statement": "For every image the entropy coder emits a code table in which every symbol that occurs has a code of 1..16 bits, no code is a prefix of another, and no code consists only of one bits.", "quantifier": "every histogram of difference categories", "why_tests_cant": "histograms range over all vectors of counts; the length-limiting loop and the reserved code matter only for extreme distributions", "anchors": ["rawler/src/ljpeg92.rs: HuffTableBuilder"]}
{"id": "C04", "title": "Entropy-coded segment never contains a marker and is read back bit for bit", "statement": "The encoder never emits 0xFF followed by a non-zero byte inside entropy-coded data, and the decoder bit reader returns exactly the emitted bits, in order, then zero bits, whatever the read sizes.", "quantifier": "every sequence of bit fields written and every sequence of peek/consume calls", "why_tests_cant": "stuffing, refill fast path and slow path interleave at arbitrary bit positions", "anchors": ["rawler/src/ljpeg92.rs: BitstreamJPEG", "rawler/src/pumps.rs: BitPumpJPEG"]}
{"id": "C05", "title": "Fast Huffman decode equals the bit-by-bit decode", "statement": "The table-driven decoder (lookup table plus decode cache) returns the same difference and consumes the same number of bits as decoding one bit at a time with the canonical code.", "quantifier": "every valid code table and every bit stream", "why_tests_cant": "tables have thousands of entries and the cache hits depend on following bits", "anchors": ["rawler/src/decompressors/ljpeg/huffman.rs: HuffTable::initialize, huff_decode, huff_diff, huff_get_bits"]}
{"id": "C06", "title": "Every parameter set the encoder accepts can be decoded", "statement": "Whenever the lossless-JPEG compressor accepts its parameters and returns bytes, the decompressor accepts those bytes.", "quantifier": "every accepted combination of width, height, components, bit depth, predictor, point transform", "why_tests_cant": "parameter combinations are large and the accept sets of two modules are separate", "anchors": ["rawler/src/ljpeg92.rs: LjpegCompressor::new", "rawler/src/decompressors/ljpeg/mod.rs: LjpegDecompressor::new_full, SofInfo::parse_sof"]}
{"id": "C07", "title": "Point transform is undone by decoding", "statement": "Encoding with a point transform p and decoding gives back the samples with the low p bits cleared.", "quantifier": "every p and every image", "why_tests_cant": "any single test uses p=0", "anchors": ["rawler/src/ljpeg92.rs: ljpeg92_diff", "rawler/src/decompressors/ljpeg/mod.rs"]}
{"id": "C08", "title": "Tiling places every pixel", "statement": "Tile k of an image contains at every in-image position the image pixel at that position, has exactly the nominal tile size, and the padding samples outside the image replicate image samples; the number of tiles is ceil(w/tw)*ceil(h/th).", "quantifier": "every image size, tile size and tile index", "why_tests_cant": "edge tiles exist in (w mod tw)*(h mod th) combinations", "anchors": ["rawler/src/tiles.rs: ImageTiler"]}
{"id": "C09", "title": "Parallel tile windows are disjoint and cover the image", "statement": "The mutable tile windows handed to parallel decoders never overlap, stay inside the buffer, together cover every sample, and row r of window k is exactly the corresponding piece of the image row.", "quantifier": "every buffer, tile size and component count accepted", "why_tests_cant": "data races need a schedule; disjointness must hold for all pairs", "anchors": ["rawler/src/tiles.rs: IntoTilesIter, TileIterMut"]}
{"id": "C10", "title": "MSB bit reader returns the stream bits in order", "statement": "Reading n1, n2, ... bits from the MSB-first reader returns the successive n-bit fields of the byte stream seen as one big-endian bit string.", "quantifier": "every byte string whose length is a multiple of four or covers the reads, and every sequence of read sizes 0..32", "why_tests_cant": "refill happens at every alignment", "anchors": ["rawler/src/pumps.rs: BitPumpMSB"]}
{"id": "C11", "title": "LSB bit reader returns the stream bits in order", "statement": "Reading n1, n2, ... bits from the LSB-first reader returns the successive n-bit fields of the byte stream seen as one little-endian bit string.", "quantifier": "every byte string and every sequence of read sizes 0..32", "why_tests_cant": "refill happens at every alignment", "anchors": ["rawler/src/pumps.rs: BitPumpLSB"]}
{"id": "C12", "title": "MSB32 bit reader returns the stream bits in order", "statement": "Reading fields from the reader of little-endian 32-bit words gives successive big-endian fields of the word sequence, including a trailing partial word.", "quantifier": "every byte string and every read sequence", "why_tests_cant": "the trailing partial word occurs for lengths not divisible by 4 only", "anchors": ["rawler/src/pumps.rs: BitPumpMSB32"]}
{"id": "C13", "title": "Packed samples unpack to the stored bit fields", "statement": "Pixel i of row r of an n-bit packed image equals the n-bit big-endian field at bit (r*width+i)*n of the data.", "quantifier": "every width, height, 8/10/12/14/16-bit packing and every data buffer of sufficient length", "why_tests_cant": "group boundaries fall differently for every width", "anchors": ["rawler/src/decompressors/packed.rs"]}
{"id": "C14", "title": "Row-parallel and whole-strip decoding agree", "statement": "Decoding a strip row by row with a row offset gives the same image as decoding it in one go.", "quantifier": "every width, bit depth, strip and row", "why_tests_cant": "row start bit offsets take every residue mod 8", "anchors": ["rawler/src/decompressors/packed.rs", "rawler/src/decoders/mod.rs: decode_strips"]}
{"id": "C15", "title": "Half and 24-bit float samples are widened exactly", "statement": "A 16- or 24-bit floating point sample is converted to the 32-bit float of the same numerical value; zeros keep their sign, infinities stay infinite, NaN stays NaN.", "quantifier": "every bit pattern of every narrow format", "why_tests_cant": "subnormals need normalisation loops of data-dependent length", "anchors": ["rawler/src/bits.rs: extend_binary_floating_point"]}
{"id": "C16", "title": "Dithered curve lookup stays near the curve", "statement": "For a non-decreasing table, dithering a value yields a result between the neighbouring table values and no arithmetic overflow occurs.", "quantifier": "every non-decreasing 16-bit table, index and random state", "why_tests_cant": "random state is 32 bit and tables are arbitrary", "anchors": ["rawler/src/bits.rs: LookupTable"]}
{"id": "C17", "title": "Uncompressed DNG strips round trip", "statement": "Writing 16-bit samples as uncompressed strips and decoding the strips yields the original pixels.", "quantifier": "every image size, component count and strip height", "why_tests_cant": "strip boundaries depend on height and environment settings", "anchors": ["rawler/src/dng/writer.rs: dng_put_raw_uncompressed", "rawler/src/decoders/mod.rs: decode_strips", "rawler/src/decompressors/packed.rs: unpack_16le"]}
{"id": "C18", "title": "TIFF values round trip", "statement": "A tag value written into a directory and read back has the same type and content.", "quantifier": "every value of every field type and length (embedded and out-of-line)", "why_tests_cant": "values have arbitrary length and the embedded/out-of-line switch depends on it", "anchors": ["rawler/src/formats/tiff/entry.rs", "rawler/src/formats/tiff/value.rs", "rawler/src/formats/tiff/writer.rs"]}
{"id": "C19", "title": "TIFF directories round trip", "statement": "A directory built from any sequence of tag additions reads back as the map from tag to last added value, in ascending tag order with no duplicates, and the chain pointer.", "quantifier": "every sequence of add/remove operations and every value", "why_tests_cant": "histories of add calls are unbounded", "anchors": ["rawler/src/formats/tiff/writer.rs: DirectoryWriter", "rawler/src/formats/tiff/ifd.rs: IFD::new"]}
{"id": "C20", "title": "TIFF data blocks keep their bytes", "statement": "Every offset returned by the writer points, in the final file, at the bytes that were written; blocks never overlap the header, each other or a directory and start on a 4-byte boundary.", "quantifier": "every sequence of write operations", "why_tests_cant": "later writes could clobber earlier ones; needs every history", "anchors": ["rawler/src/formats/tiff/writer.rs: TiffWriter"]}
{"id": "C21", "title": "Directory chains terminate", "statement": "Reading the chain of top-level directories of any file terminates and returns at most the permitted number.", "quantifier": "every file, including files whose chain is cyclic", "why_tests_cant": "malicious inputs are unbounded", "anchors": ["rawler/src/formats/tiff/reader.rs: parse_file"]}
{"id": "C22", "title": "Reading a TIFF entry never panics", "statement": "For every byte string and every entry in it, parsing either gives a value or an error; never an out-of-bounds access or arithmetic overflow.", "quantifier": "every byte string", "why_tests_cant": "fuzzing samples", "anchors": ["rawler/src/formats/tiff/entry.rs: Entry::parse"]}
{"id": "C23", "title": "Mosaic phase survives DNG", "statement": "The colour of every sensor position recomputed from the written DNG tags (pattern relative to the active area) equals the colour in the original pattern, and reading the DNG back gives the original pattern.", "quantifier": "every pattern, active-area origin and position", "why_tests_cant": "phases take every residue", "anchors": ["rawler/src/cfa.rs: CFA::shift, color_at", "rawler/src/dng/writer.rs: write_rawimage", "rawler/src/decoders/dng.rs: get_cfa"]}
{"id": "C24", "title": "Black level phase survives DNG", "statement": "The black level of every sensor position recomputed from the written DNG tags equals that of the source image, and reading the DNG back gives the original black-level pattern.", "quantifier": "every repeat size, active-area origin and position", "why_tests_cant": "phases take every residue", "anchors": ["rawler/src/rawimage.rs: BlackLevel::shift", "rawler/src/dng/writer.rs", "rawler/src/decoders/dng.rs: get_blacklevels"]}
{"id": "C25", "title": "Active and crop areas survive DNG", "statement": "Reading back the active area and default crop written to a DNG yields the same rectangles.", "quantifier": "every image size, active area and crop inside it", "why_tests_cant": "16-bit fields overflow only for large images", "anchors": ["rawler/src/dng/mod.rs: rect_to_dng_area", "rawler/src/dng/writer.rs", "rawler/src/decoders/dng.rs: make_camera", "rawler/src/imgop/mod.rs: Rect"]}
{"id": "C26", "title": "Embedded original raw file is restored byte for byte", "statement": "Decompressing the original-file container produced from any file returns that file.", "quantifier": "every file content and size", "why_tests_cant": "block boundaries and index arithmetic depend on size", "anchors": ["rawler/src/dng/original.rs: OriginalCompressed"]}
{"id": "C27", "title": "Corrupted embedded originals are rejected", "statement": "With verification, extraction succeeds only if the digest of the extracted bytes equals the recorded digest.", "quantifier": "every container and digest", "why_tests_cant": "inputs unbounded", "anchors": ["rawler/src/dng/original.rs: OriginalCompressed::decompress"]}
{"id": "C28", "title": "Rotations form a group action", "statement": "Rotating an image clockwise then counter-clockwise, four times clockwise, or twice by 180 gives back the image; twice clockwise is 180; each pixel lands where geometry says.", "quantifier": "every image size and content", "why_tests_cant": "index arithmetic for all sizes", "anchors": ["rawler/src/pixarray.rs: Color2D::rotate_90cw, rotate_90ccw, rotate_180", "rawler/src/imgop/raw.rs: rotate_90"]}
{"id": "C29", "title": "Orientation codes round trip", "statement": "Every EXIF orientation converts to flips and back, and to the numeric code and back, without change.", "quantifier": "all orientations and all 16-bit codes", "why_tests_cant": "finite but the unknown cases are easily missed", "anchors": ["rawler/src/decoders/mod.rs: Orientation"]}
{"id": "C30", "title": "Cropping keeps the selected pixels", "statement": "A cropped image has the requested size and its pixel (r,c) is the source pixel (y+r, x+c); in-place cropping equals copying crop; cropping twice equals one crop with composed rectangle.", "quantifier": "every image and rectangle inside it", "why_tests_cant": "index arithmetic for all sizes", "anchors": ["rawler/src/pixarray.rs: Pix2D::crop, into_crop, Color2D::crop", "rawler/src/imgop/mod.rs: crop"]}
{"id": "C31", "title": "2x2 de-interleaving is a permutation", "statement": "De-interleaving places every sample of the four quadrants at its 2x2 position, losing and duplicating none.", "quantifier": "every image size", "why_tests_cant": "odd sizes", "anchors": ["rawler/src/pixarray.rs: deinterleave2x2"]}
{"id": "C32", "title": "Batch conversion never targets one file twice", "statement": "All output paths planned for a batch are pairwise distinct, and planning terminates.", "quantifier": "every list of inputs, existing claims and frame counts", "why_tests_cant": "inputs unbounded", "anchors": ["bin/dnglab/dnglab-lib/src/convert.rs: generate_job"]}
{"id": "C33", "title": "Conversion without override never alters an existing file", "statement": "Under every interleaving of jobs and other processes, a conversion that was not asked to override leaves pre-existing files unchanged.", "quantifier": "every file-system state, job set and schedule", "why_tests_cant": "schedules and crash points", "anchors": ["bin/dnglab/dnglab-lib/src/jobs/raw2dng.rs: internal_exec"]}
{"id": "C34", "title": "A failed conversion leaves no output", "statement": "If conversion reports failure then no output file of that job remains, and if it reports success the output holds the full result.", "quantifier": "every failure point of the conversion", "why_tests_cant": "crash points", "anchors": ["bin/dnglab/dnglab-lib/src/jobs/raw2dng.rs"]}
{"id": "C35", "title": "Conversion never destroys its source", "statement": "After a conversion job, successful or not, the input file is still present with its content.", "quantifier": "every input/output path pair and option", "why_tests_cant": "needs path aliasing such as converting a DNG in place with override", "anchors": ["bin/dnglab/dnglab-lib/src/jobs/raw2dng.rs", "bin/dnglab/dnglab-lib/src/convert.rs"]}
{"id": "C36", "title": "Extraction writes only below the chosen directory", "statement": "Extracting an embedded original writes only inside the destination directory.", "quantifier": "every DNG, in particular every stored original file name", "why_tests_cant": "names are attacker-controlled", "anchors": ["bin/dnglab/dnglab-lib/src/extract.rs"]}
{"id": "C37", "title": "Batch development never loses a result", "statement": "When developing several raws to TIFF every job that reports success has its own result in its output file at the end.", "quantifier": "every job set and schedule", "why_tests_cant": "needs a schedule", "anchors": ["bin/dnglab/dnglab-lib/src/process_raw.rs", "bin/dnglab/dnglab-lib/src/jobs/process_raw.rs"]}
{"id": "C38", "title": "Directory mapping mirrors the tree", "statement": "The output of a file below the input directory is at the same relative path below the output directory; distinct inputs get distinct mapped paths.", "quantifier": "every directory tree", "why_tests_cant": "paths unbounded", "anchors": ["bin/dnglab/dnglab-lib/src/filemap.rs"]}
{"id": "C39", "title": "FTP command framing is independent of packet boundaries", "statement": "The commands a server sees depend only on the byte stream, not on how it is split into network reads.", "quantifier": "every byte stream and every split", "why_tests_cant": "splits are exponential", "anchors": ["embedftp/src/codec.rs", "embedftp/src/command.rs"]}
{"id": "C40", "title": "FTP clients are confined to the server root", "statement": "Whatever commands a client sends, no file operation touches a path outside the server root.", "quantifier": "every command sequence and every path", "why_tests_cant": "command histories unbounded", "anchors": ["embedftp/src/client.rs: complete_path, stor, retr, cwd, mkd, rmd, dele"]}
{"id": "C41", "title": "FTP file commands need a login", "statement": "No file command takes effect before a successful login with the configured user and password.", "quantifier": "every command sequence and configuration", "why_tests_cant": "command histories unbounded", "anchors": ["embedftp/src/client.rs: handle_cmd", "embedftp/src/config.rs"]}
{"id": "C42", "title": "FTP replies cannot be forged by content", "statement": "Every reply is encoded so that a standard FTP client parses exactly one reply with the given code whatever the message text lines are.", "quantifier": "every code and message", "why_tests_cant": "message text includes file names", "anchors": ["embedftp/src/codec.rs: encode"]}
{"id": "C43", "title": "Nikon metadata decryption is an involution", "statement": "Whenever decryption returns, the length and the bytes before the start are unchanged and decrypting the result again with the same keys gives back the input; it returns for every serial number of up to 19 characters and up to 4000 encrypted bytes.", "quantifier": "every buffer, start position and key pair", "why_tests_cant": "buffers unbounded", "anchors": ["rawler/src/decoders/nef/decrypt.rs"]}
{"id": "C44", "title": "Black-level correction touches every pixel", "statement": "Every pixel of the image is corrected with the black level and white level of its own position.", "quantifier": "every image size and pattern", "why_tests_cant": "odd sizes", "anchors": ["rawler/src/imgop/raw.rs: correct_blacklevel_cfa"]}
{"id": "C45", "title": "Bit-array accumulates fields in order", "statement": "After any history of pushes and pops a bit array behaves as the list of its bits: refused calls, popped bits, length, left-aligned value, text, and (for a non-empty one) right-aligned value; a code made from a number is the one made by pushing its bits; arrays are ordered by length, then value.", "quantifier": "every storage width and operation sequence", "why_tests_cant": "operation histories", "anchors": ["rawler/src/bitarray.rs"]}
{"id": "C46", "title": "Unary codes and signed fields are read exactly", "statement": "Counting the zero bits of a unary code returns the length of the zero run and stops on the following one bit; reading a signed field returns the two's complement value of exactly that many bits.", "quantifier": "every byte string, every run length, every field width 1..32", "why_tests_cant": "runs longer than one 31-bit round and every field width/sign", "anchors": ["rawler/src/pumps.rs: BitPump::consume_zerobits, get_ibits_sextended"]}
{"id": "C47", "title": "Floating-point predictor is undone exactly", "statement": "A tile of floating-point samples stored as DNG prescribes (bytes split into planes, most significant first, then differenced at the distance selected by the Predictor tag, then deflated) decodes to samples with exactly the stored values.", "quantifier": "every tile size, predictor, channel count, bit depth and sample bit pattern", "why_tests_cant": "every bit pattern of every sample in a tile of any size interacts through the running sum", "anchors": ["rawler/src/decompressors/deflate.rs: DeflateDecompressor::decompress, decode_delta_bytes, decode_fp_delta_row", "rawler/src/bits.rs: extend_binary_floating_point"]}
{"id": "C48", "title": "Sony metadata decryption is an involution", "statement": "Decrypting the result again with the same key gives back the input bytes; the result has the whole words of the requested length; too short buffers give an error.", "quantifier": "every buffer, offset, length and key", "why_tests_cant": "buffers and keys unbounded", "anchors": ["rawler/src/decoders/arw.rs: sony_decrypt"]}
{"id": "C49", "title": "Lossless CR3 bands decode to the coded samples", "statement": "A band of a CR3 (CRX) image, coded with run lengths, median edge prediction and adaptive Golomb-Rice codes as the format prescribes, decodes line by line to exactly the coded samples; the same for wavelet detail bands, which do not refer to the line above. Bytes after the band do not matter.", "quantifier": "every band width, number of lines and sample values", "why_tests_cant": "the decoder's state (Golomb-Rice parameter, run index, line above) depends on all samples before", "anchors": ["rawler/src/decompressors/crx/decoder.rs: decode_line and the line decoders", "rawler/src/decompressors/crx/rice.rs: RiceDecoder", "rawler/src/decompressors/crx/runlength.rs: symbol_run_count"]}
{"id": "C50", "title": "Lossless CR3 images decode to the stored mosaic", "statement": "A lossless CR3 (CRX) image - header records, tiles, four colour planes per tile, each coded as the format prescribes - decodes to exactly the picture, every sample at its place.", "quantifier": "every picture size, tile size, bit depth, sample values, fill bytes and trailing data", "why_tests_cant": "picture and tile sizes and contents are unbounded; test files have one or two tiles", "anchors": ["rawler/src/decompressors/crx/mod.rs: decompress_crx_image, CodecParams::new, process_tiles", "rawler/src/decompressors/crx/mdat.rs: parse_header", "rawler/src/decompressors/crx/decoder.rs: CodecParams::decode, convert_plane_line, integrate_cfa"]}
{"id": "C51", "title": "Decoded CR3 images have the declared size and range", "statement": "Whatever the bytes of a CR3 image are, if it decodes at all the result has exactly width times height samples, each below two to the declared bit depth.", "quantifier": "every byte string and every image description (no wavelet levels)", "why_tests_cant": "arbitrary, also hostile, files", "anchors": ["rawler/src/decompressors/crx/mod.rs: decompress_crx_image", "rawler/src/decompressors/crx/decoder.rs: convert_plane_line, integrate_cfa"]}
{"id": "C52", "title": "TIFF files of either byte order are read as the format says", "statement": "For every file that is laid out as a chain of TIFF directories, Intel or Motorola, with values of any type and sub-directories, the reader returns exactly these directories, entries and values, in order, and skips entries it cannot read without losing the others.", "quantifier": "every tree of directories, values, offsets, byte order and content in between", "why_tests_cant": "unbounded nesting, counts and placements; the two byte orders use different code paths", "anchors": ["rawler/src/formats/tiff/ifd.rs: IFD::new, new_root", "rawler/src/formats/tiff/entry.rs: Entry::parse", "rawler/src/formats/tiff/reader.rs: GenericTiffReader::new, read_header"]}
{"id": "C53", "title": "FTP replies tell what happened", "statement": "Every FTP command is answered with exactly one final reply. A positive reply to a command that changes the file system is sent exactly if that change, on the file or directory named by the client's path inside the served root, was made; transfers are confirmed exactly if they were done.", "quantifier": "every session, file system state, client path and failure of the file system or the network", "why_tests_cant": "depends on the file system, on failures and on the history of the session", "anchors": ["embedftp/src/client.rs: mkd, rmd, dele, retr, stor, list, nlst, pasv, epsv, handle_cmd"]}
{"id": "C54", "title": "Wavelet compressed CR3 planes decode to the picture", "statement": "For every picture, every number of wavelet levels and every tile of a row of tiles, decoding the bands of the 5/3 wavelet transform gives exactly the samples of the tile, line by line; and whatever coefficients of the right sizes a file contains, the result is the one picture that has this transform. Nothing overflows for samples of up to 16 bits and three levels.", "quantifier": "every picture size without a level of height or width 2, every content, every number of levels, every split into columns of tiles, every source of band lines", "why_tests_cant": "the line buffers rotate over several levels with different cases for parity, borders and neighbours; sizes and contents are unbounded", "anchors": ["rawler/src/decompressors/crx/idwt.rs: WaveletTransform, idwt_53_horizontal, idwt_53_filter_init, idwt_53_filter_decode, idwt_53_filter_transform", "rawler/src/decompressors/crx/decoder.rs: decode_plane, decode_plane_line"]}
{"id": "C55", "title": "Lossy CR3 planes: band layout, quantization tables, inverse quantization", "statement": "For every set of quantized wavelet bands, quantization parameters or coded table of parameters: decoding the coded plane finds every band with its size, multiplies every coefficient by the step that belongs to its band and place, and returns the picture whose wavelet transform has these coefficients. With step 1 decoding is lossless. For tiles side by side the sizes of the bands with the coefficients shared between tiles are right for every plane width, and the tile is the part of the picture it covers.", "quantifier": "every plane size, every content of the bands, every quantization parameter 4..35 without a table, every table of parameters, 1 to 3 levels, every split into columns of tiles", "why_tests_cant": "the sizes depend on the width modulo 8, level and neighbours; steps, tables and contents are unbounded", "anchors": ["rawler/src/decompressors/crx/iquant.rs: decode_line_with_iquantization, decode_qp_table, make_qstep", "rawler/src/decompressors/crx/mod.rs: process_subbands, EX_COEF_NUM_TBL", "rawler/src/decompressors/crx/mdat.rs: get_subband_row, setup_idx", "rawler/src/decompressors/crx/decoder.rs: PlaneLineIter"]}
{"id": "C56", "title": "Sony ARW1 and ARW2 data decode to the stored pixels", "statement": "For every picture of 16 bit pixels: decoding its ARW1 code (differences between pixels, columns from right to left, even rows before odd rows) gives the picture. For every ARW2 file: every decoded pixel is a dithered value of the camera's tone curve at the stored value, which is exact for the extremes of each group of 16 pixels and for groups with a range below 128, and less than one step too small otherwise. The curve built from the four knots of the file is the camera's curve.", "quantifier": "every width, height, pixel content, group content, knots of the curve, and whatever follows the code in the file", "why_tests_cant": "variable length codes over unbounded images; every combination of code lengths, group ranges and knots", "anchors": ["rawler/src/decoders/arw.rs: decode_arw1, decode_arw2, get_curve, calculate_curve", "rawler/src/bits.rs: LookupTable", "rawler/src/pumps.rs: BitPumpMSB, BitPumpLSB"]}
{"id": "C57", "title": "Pentax PEF data decode to the stored pixels", "statement": "For every picture: decoding its PEF code (differences to the pixel two to the left, or two above at the start of a row; each difference as a word for its number of digits followed by its digits) gives the picture, with the built-in words and with any words the camera stores in the file, in both byte orders.", "quantifier": "every width, height, pixel content, stored table, byte order, and whatever follows the code in the file", "why_tests_cant": "variable length codes over unbounded images; every table and every combination of code lengths", "anchors": ["rawler/src/decoders/pef.rs: do_decode", "rawler/src/decompressors/ljpeg/huffman.rs: HuffTable", "rawler/src/pumps.rs: ByteStream, BitPumpMSB"]}
{"id": "C58", "title": "Nikon NEF data decode to the stored pixels", "statement": "For every compressed NEF file: adding up the differences stored with the code for the file's version and number of bits (and, in lossy files with a split, the other code from that row on) and limiting the sums to the number of bits gives the stored values, and every pixel is the dithered value of the file's tone curve at its stored value. In lossless files there is no curve, and every pixel is the stored value.", "quantifier": "every width, height, sequence of code words, version, number of bits, start values, tone curve, split row, byte order, and whatever follows the code", "why_tests_cant": "variable length codes over unbounded images; every combination of code words, curves and split rows", "anchors": ["rawler/src/decoders/nef.rs: do_decode, create_hufftable, NIKON_TREE", "rawler/src/bits.rs: LookupTable, clampbits", "rawler/src/decompressors/ljpeg/huffman.rs: HuffTable"]}
{"id": "C59", "title": "Lossless JPEG data of any writer decode to the stored samples", "statement": "Every lossless JPEG file whose segments, tables and scan follow the standard (several tables in one segment, tables that replace earlier ones, comments, any component names, any predictor 1 to 7, old DNG files that write digits with 16-digit differences) decodes to the samples that were stored; decoding the left upper part of a picture into a window of a larger buffer (tiles, strips) writes exactly the samples of this part and leaves the rest of the buffer alone.", "quantifier": "every frame size, number of components 1 to 4, table, segment sequence without 0xff in segments to be passed over, predictor, point transform, picture, window, and whatever follows the scan", "why_tests_cant": "file layouts, tables and pictures are unbounded; the project's own encoder writes only one of these layouts", "anchors": ["rawler/src/decompressors/ljpeg/mod.rs: LjpegDecompressor::new_full, SofInfo, decode", "rawler/src/decompressors/ljpeg/decompressors.rs: decode_ljpeg", "rawler/src/decompressors/ljpeg/huffman.rs: HuffTable", "rawler/src/pumps.rs: BitPumpJPEG"]}
{"id": "C60", "title": "Subsampled lossless JPEG data (sRAW) decode to the stored samples", "statement": "Every lossless JPEG file with half as many colour samples as brightness samples, in the arrangements of Canon (two pixels side by side, two by two pixels) and Sony (the same, with another order of references), decodes to three samples per pixel: the stored brightness of the pixel and the stored colours of its block.", "quantifier": "every picture of 16 bit samples with differences of 16 bits, every frame size that is a whole number of blocks, every table, segment sequence, precision and point transform, and whatever follows the scan", "why_tests_cant": "variable length codes over unbounded pictures, with four samples chained inside a block and different references at the start of a row", "anchors": ["rawler/src/decompressors/ljpeg/decompressors.rs: decode_ljpeg_420, decode_ljpeg_422, decode_sony_ljpeg_420, set_yuv_420, set_yuv_422", "rawler/src/decompressors/ljpeg/mod.rs: LjpegDecompressor::decode, decode_sony"]}
{"id": "C61", "title": "CR2 sensor images are put together from their slices", "statement": "For every CR2 file whose lossless JPEG data hold the samples of the sensor cut into vertical slices (any number of slices of one width and a last one of another width, each row by row), with or without two rows stored as one, the decoded image has the size the metadata give and every sample at its place; without slices it is the JPEG picture.", "quantifier": "every picture, JPEG file (C59), number and width of slices, image size", "why_tests_cant": "the slice arithmetic must be right for every width, height, slice count and shape of the JPEG frame", "anchors": ["rawler/src/decoders/cr2.rs: Cr2Decoder::raw_image", "rawler/src/pixarray.rs: update_dimension"]}
{"id": "C62", "title": "Canon sRAW pictures become RGB pictures with all colours filled in", "statement": "Every sRAW file (a colour sample for two or for four pixels, cut into slices or not) decodes to a picture of the size in the metadata in which every missing colour sample is the rounded average of its neighbours and every pixel is converted to red, green and blue with the white balance of the file and the formula of the camera generation, limited to 16 bits.", "quantifier": "every picture, slice width and count, image size, white balance and camera generation for which 32 bits are enough", "why_tests_cant": "in-place interpolation in blocks of three rows and fixed-point arithmetic must be right at every position and for every value", "anchors": ["rawler/src/decoders/cr2.rs: raw_image, interpolate_yuv, convert_to_rgb, get_sraw_wb"]}
{"id": "C63", "title": "Sony ARW images in lossless JPEG tiles decode to the stored image", "statement": "An ARW file whose image is stored as lossless JPEG tiles of 512 by 512 pixels (sensor data as 256 by 256 squares with four components, or brightness and colours with a colour sample for two or four pixels) decodes to the image in which every sample is at its place in every tile, and colours are filled in within each tile.", "quantifier": "every number of tile rows and columns, every position of the tiles in the file, every JPEG file of C59 or C60 in each tile, every image", "why_tests_cant": "every sample of every tile has its own place; the size of the image, the order of the tiles in the file and the tables of each tile are arbitrary", "anchors": ["rawler/src/decoders/arw.rs: decode_ljpeg", "rawler/src/decompressors/mod.rs: decompress_strips_fn", "rawler/src/imgop/yuv.rs: interpolate_yuv"]}
{"id": "C64", "title": "Hasselblad 3FR and Leaf MOS compressed images decode to the stored image", "statement": "A compressed Hasselblad file (pairs of samples, each compared with the sample two columns before) and a compressed Leaf file (strips of eight rows coded on their own, with markers between them, rows interlaced or not) decode to the stored image.", "quantifier": "every image of 16 bit samples, every size (even width for Leaf), every table set, any headers and any bytes after the data", "why_tests_cant": "every difference, table, number of strips and row order has its own path through bit reading, and the number of strips depends on bytes that look like markers", "anchors": ["rawler/src/decoders/tfr.rs: decode_compressed", "rawler/src/decoders/mos.rs: do_decode", "rawler/src/decompressors/ljpeg/mod.rs: decode_leaf", "rawler/src/decompressors/ljpeg/decompressors.rs: decode_hasselblad, decode_leaf_strip"]}
{"id": "C65", "title": "Compressed Olympus images decode to the stored image", "statement": "A compressed Olympus (ORF) strip, whose samples are coded as adaptive prefix codes of the difference to a prediction from the neighbours of the same colour, decodes to the stored image; a last column without a partner stays 0.", "quantifier": "every image of samples below 32768, every size, any header bytes, any choice of code (short or escape) for each sample, 12 or 14 bit", "why_tests_cant": "the code of every sample depends on all samples before it in the row and on three neighbours; every combination of signs and sizes takes another path", "anchors": ["rawler/src/decoders/orf.rs: decode_compressed"]}
{"id": "C66", "title": "Panasonic raw data decodes to the stored image", "statement": "Panasonic RW2 raw data consists of packets of 16 bytes, in versions 4 and 5 possibly rotated inside blocks of 16 KiB. Versions 5 and 7: the samples are the fields of the packets. Versions 4 and 6: the samples are coded as scaled differences to the sample before of the same parity; version 6 then takes 15 off, down to 0.", "quantifier": "every picture size in whole packets, every content of the packets, 12 and 14 bit, split and not", "why_tests_cant": "a bit pump that runs backwards inside blocks of 16 KiB, with rotation at byte 0x1ff8 and strips decoded in parallel from computed offsets: an error shows in single packets of certain blocks only", "anchors": ["rawler/src/decoders/rw2/v4decompressor.rs: decode_panasonic_v4, BitPumpPanasonic", "rawler/src/decoders/rw2/v5decompressor.rs: decode_panasonic_v5", "rawler/src/decoders/rw2/v6decompressor.rs: decode_panasonic_v6", "rawler/src/decoders/rw2/v7decompressor.rs: decode_panasonic_v7"]}
{"id": "C67", "title": "Compressed Samsung images decode to the stored image", "statement": "The three compressed SRW formats store differences of pixels: the first in fields whose lengths change from group to group of 16 pixels, at row offsets from a table, with red and blue in each other's place; the second in prefix codes for the difference from the pixel two to the left or two above; the third in blocks of 16 pixels predicted from the block before or from the rows above, with scaled differences, cut off to the pixel depth, rows aligned to 16 bytes. Decoding gives back every pixel, and every 12 bit (first), 13 bit (second) and 14 bit (third) picture can be stored.", "quantifier": "every picture of whole groups of 16 pixels (first and third), any size (second), every choice of lengths, prediction and scale by the camera, every content", "why_tests_cant": "the lengths, scales and predictions are state carried from block to block and chosen freely by the camera; sample files exercise only the choices of one scene", "anchors": ["rawler/src/decoders/srw.rs: decode_srw1, decode_srw2, srw2_diff, decode_srw3", "rawler/src/bits.rs: clampbits", "rawler/src/pumps.rs: BitPumpMSB32, get_ibits_sextended"]}
{"id": "C68", "title": "A CR3 container is read as the boxes it consists of", "statement": "A CR3 or CRM file is a tree of boxes. For every well-formed file the reader comes to an end and reports exactly its boxes (type, UUID, offset, size, header length, stored numbers, children, in order); boxes of unknown type are skipped wherever the format allows them; image parameters, image area, track count, track of an image type, compatible brands and XMP packet looked up in the result are those of the file. For every byte string the reader ends unless it meets a box of size zero.", "quantifier": "every box tree of the format (any nesting, number and order of boxes, 32 and 64 bit sizes, trailing bytes), every byte string for the second part", "why_tests_cant": "the file is an arbitrary tree; offsets of all boxes depend on the sizes of all boxes before them, and the reader's loops end only if every size in the file moves it forward", "anchors": ["rawler/src/formats/bmff/mod.rs: FileBox::parse, BoxHeader", "rawler/src/formats/bmff/*.rs: read_box", "rawler/src/formats/bmff/ext_cr3/*.rs: read_box", "rawler/src/decoders/cr3.rs: cmp1_box, iad1_box, get_trak_index, xpacket"]}
{"id": "C69", "title": "Every frame of a CR3 track is found where it is stored", "statement": "A track stores its frames in chunks described by the sample-to-chunk, sample size and chunk offset tables. For every frame the offset looked up is that of its chunk plus the sizes of the frames before it in the chunk, and the size is its own.", "quantifier": "every container with such tables, every track and frame", "why_tests_cant": "the place of a frame depends on all runs of the table before it and on the sizes of other frames; test files have one frame", "anchors": ["rawler/src/formats/bmff/stbl.rs: get_sample_offset", "rawler/src/formats/bmff/stsc.rs: read_box, get_entry_for_sample", "rawler/src/formats/bmff/stsz.rs: sample_size", "rawler/src/decoders/cr3.rs: raw_image, read_ctmd"]}
{"id": "C70", "title": "Fuji compressed RAF pictures are read back exactly", "statement": "A losslessly compressed Fuji picture (Bayer or X-Trans, 12, 14 or 16 bits) is decompressed to the very pixels that were stored; a lossy one to pixels that differ by no more than the error its table of steps allows for that strip and block of six rows. The result does not depend on the order in which the thread pool runs the strips.", "quantifier": "every picture size, filter array, bit depth and pixel values of the format, every table of steps, every order of the strips", "why_tests_cant": "codes adapt to all samples before them and predictions to two rows above, so any pixel depends on everything before it in its strip; sample files exercise a few of the paths", "anchors": ["rawler/src/decoders/raf/fuji_decompressor.rs: decompress_fuji, decompress_strip, copy_line", "rawler/src/decoders/raf.rs: raw_image"]}
{"id": "C71", "title": "Compressed Canon CRW pictures decode to the stored picture", "statement": "A CRW picture stored with any of the three sets of code tables is decompressed to the samples that were stored, with 10 bits or, when the low bits are stored apart, with 12 bits (pictures 2672 pixels wide have 2 added to samples below 512). Files that end before the scan and unknown tables are refused.", "quantifier": "every picture whose number of samples is a multiple of 64, all sample values, every table set, whatever else is in the file", "why_tests_cant": "codes are runs of zeros and differences of differences; any sample depends on all codes before it in its row and block; test files cover few of the 162 symbols", "anchors": ["rawler/src/decoders/crw.rs: do_decode, decode_compressed, create_hufftable", "rawler/src/decompressors/ljpeg/huffman.rs: huff_get_bits, initialize", "rawler/src/pumps.rs: BitPumpJPEG"]}
{"id": "C72", "title": "Items stored in a Canon CIFF file are found, and CRW files open with the right size, tables and names", "statement": "Every well-formed CIFF file (a tree of directories) is read; for each tag the item found is the directory's own last one, or that of the first subdirectory that has it, with exactly its bytes. A whole CRW file is therefore opened with its maker and model, and its picture has the stored width, height and samples; the white balance is the stored one.", "quantifier": "every tree of directories up to ten levels, every layout of the values in the file, every tag and contents", "why_tests_cant": "directories nest, values may lie anywhere, tags may repeat; sample files use one layout and a few tags", "anchors": ["rawler/src/formats/ciff/mod.rs: is_ciff, CiffIFD::new_file, CiffIFD::new, find_entry, CiffEntry::new, get_u32, get_strings", "rawler/src/decoders/crw.rs: CrwDecoder::new, raw_image, decode_compressed, get_wb"]}
{"id": "C73", "title": "Phase One IIQ files decode to the stored samples", "statement": "For every picture, and whatever lengths, sizes and extra digits the camera chose, a row by row IIQ file (uncompressed, IIQ L, IIQ L16, IIQ S, IIQ S version 2) decodes to exactly the stored samples, scaled to 16 bits (for IIQ S after the curve), each at its place.", "quantifier": "every width, height, picture, every choice of the writer in every group of eight, every placement of the rows in the file", "why_tests_cant": "lengths are chosen per eight samples and may refer to the eight before; a sample file shows one run of choices, and the rare words (13, kept lengths, size changes, incomplete last group) hardly occur", "anchors": ["rawler/src/decoders/iiq.rs: decode_uncompressed, decode_compressed, decode_nonlinear, decode_compressed_sv2"]}
{"id": "C74", "title": "Kodak DCR files decode to the coded samples through the curve", "statement": "For every picture whose samples have a place on the camera's curve and whose differences have at most 15 digits, a Kodak 65000 file decodes to an image of that size in which every sample is the curve at the coded sample, up to the documented dithering; bytes after the picture do not matter.", "quantifier": "every width, height, picture, gentle curve and every padding of the segments", "why_tests_cant": "the digits of a segment run through words of 16 bits in an order that depends on how many samples the segment has and on all the lengths before; a sample file shows one sequence of lengths", "anchors": ["rawler/src/decoders/dcr.rs: decode_kodak65000, decode_segment"]}
{"id": "C75", "title": "EXIF and GPS metadata of a raw file arrive in the DNG", "statement": "Converting a raw file to DNG carries over its metadata: the EXIF directory of the DNG holds each of 37 listed tags with the value it has in the EXIF directory of the raw file (or else in its main directory), the identified lens, the EXIF version and nothing else; the GPS directory holds each of the 32 GPS tags with its value and nothing else; the main directory holds orientation, copyright, artist (that of the user first), the time of conversion and the lens. A reader of the finished file finds them there, and a second conversion leaves them as they are.", "quantifier": "all main, EXIF and GPS directories with each tag once and values of any type and length, all lenses, all other contents of the DNG (images, previews, root tags, embedded original, XMP packet, parameters)", "why_tests_cant": "Tests compare the metadata of sample files; a tag swapped or stored with another type only shows in a file that has that tag, and offsets only in files of all sizes.", "anchors": ["rawler/src/exif.rs:Exif::new", "rawler/src/exif.rs:Exif::extend_from_ifd", "rawler/src/exif.rs:Exif::extend_from_gps_ifd", "rawler/src/exif.rs:Exif::extend_from_lens", "rawler/src/formats/tiff/writer.rs:ExifWriter / fill_exif_ifd, fill_exif_root, transfer_entry", "rawler/src/dng/convert.rs:internal_convert", "rawler/src/dng/writer.rs:DngWriter::load_metadata, close", "rawler/src/decoders/mod.rs:RawMetadata::new, new_with_lens"]}
{"id": "C76", "title": "JPEG files with EXIF data are read to their end", "statement": "Opening or reading a JPEG file always ends. For a well-formed file every part (JFIF, EXIF, XMP, other APP1, tables, scans) is reported once, in order, with its position, size and contents; the EXIF directory and XMP packet handed on are those of the first such part.", "quantifier": "all byte strings; all sequences of well-formed parts of any number and size, anything behind the end marker, any behaviour of the TIFF reader", "why_tests_cant": "Tests parse a few camera files. Whether the loop ends depends on where a file is cut and what the reader's position is after each failure, and on every sequence and size of parts.", "anchors": ["rawler/src/formats/jfif.rs: Jfif::parse, App0::read_segment, App1::read_segment, SOS::read_segment, exif_ifd, xpacket", "rawler/src/decoders/mod.rs: RawLoader::get_decoder"]}
{"id": "C77", "title": "Minolta MRW files: blocks, picture and white balance", "statement": "For every well-formed MRW file, in whatever order its blocks come and whatever unknown blocks are among them, the size and storage form of the picture are those of the last PRD block, the white balance that of the last WBG block, the TIFF data those of the last TTW block, and the picture is what lies behind the blocks, unpacked sample by sample. For the EXIF variants the white balance is the last 'red, blue, 256, 256' before the picture.", "quantifier": "all sequences of blocks of any number and size, all pictures, all byte strings in the place of maker notes", "why_tests_cant": "Tests decode a few camera files, with one order of blocks and one size each. Positions are sums of lengths in the file, and loops end by a bound on them.", "anchors": ["rawler/src/decoders/mrw.rs: MrwDecoder::new_mrw, raw_image, get_mly_wb, is_mrw"]}
{"id": "C78", "title": "Panasonic raw format 8: every picture comes back from its strips", "statement": "For every picture, every way to cut it into strips, every complete prefix code of at most 17 words and every set of initial values, decoding the stored strips gives every sample back; with a tone curve, the value of the curve, which is that of the last piece beginning at or before the sample, and never above the limit.", "quantifier": "all picture sizes and samples, all lists of strips, all code tables, initial values and curves, all positions of the strips in the file", "why_tests_cant": "Tests compare checksums of a few camera files. A sample depends on the words before it in its strip, the sample to the left and the row pair above, and the strips are decoded in parallel into one picture through unchecked writes.", "anchors": ["rawler/src/decoders/rw2/v8decompressor.rs: decode_panasonic_v8, decode_strip, HuffmanDecoder, calc_gamma, make_gammatable", "rawler/src/pumps.rs: BitPumpReverseBitsMSB"]}
{"id": "C79", "title": "The lens reported is the lens the file names, and never a guess", "statement": "For every lens database and everything a file says: a lens reported is in the database and has the key name, Nikon or Olympus identifier of the file, or it is the only lens that agrees with mount, number, make, model, focal length and aperture. If several agree, none is reported. A key name, then a Nikon and an Olympus identifier decide alone. The order of the database does not matter.", "quantifier": "all databases, all combinations of known and unknown facts, all fractions", "why_tests_cant": "The one test there is asks for one lens. The database has some 1900 lenses, and which one is found depends on all others.", "anchors": ["rawler/src/lens.rs: LensResolver::resolve, resolve_internal, with_camera", "rawler/src/formats/tiff/value.rs: Rational::partial_cmp"]}
{"id": "C80", "title": "Every file gets the decoder and the camera settings meant for it", "statement": "For every camera database: each entry is found under each of its names and in each of its modes, and every setting is the one of the mode, or else the one of the entry; a maker, model and mode not in the database give an error, never another camera; white space behind the names does not matter. For every file: a file that begins with the signature of a container gets the decoder of this container whatever follows, no file begins with two signatures, files that begin as TIFF files are decoded by DNG version and then by maker, other makers are refused, and only files no reader knows are taken by their size.", "quantifier": "all databases with any number of cameras, modes and aliases, all files, all results of the readers", "why_tests_cant": "The database has over a thousand cameras, and what one of them gets depends on all others: on the order of the entries and on every name and file size. Tests have one file for some of them.", "anchors": ["rawler/src/decoders/mod.rs: RawLoader::new, get_decoder, check_supported_with_mode", "rawler/src/decoders/camera.rs: Camera::update_from_toml, make_whitelevel, make_blacklevel"]}
{"id": "C81", "title": "makedng builds the file from the inputs the user named", "statement": "For every command line of makedng and every state of the file system: a --map is accepted exactly if it is a number, a colon and a usage, and the first map for a usage decides which input it is; the command touches no file but the output; it succeeds exactly if all named inputs exist, the output is new or may be replaced and a DNG file can be made, and then the output is that file; after an error no output is left. Tags given on the command line win over those of the inputs. (False for existing outputs, for outputs that are also inputs, for the artist and for the third matrix.)", "quantifier": "all command lines, file systems with hard links, contents of inputs and failures of calls", "why_tests_cant": "Texts, maps, directories and failures of system calls can be combined in endlessly many ways; tests can't make calls fail.", "anchors": ["bin/dnglab/dnglab-lib/src/makedng.rs: makedng, makedng_internal, get_input_path, InputSourceUsageMap::from_str, LinearizationTableArgParser", "rawler/src/dng/writer.rs: write_rawimage, load_metadata", "rawler/src/formats/tiff/writer.rs: add_tag, remove_tag, fill_exif_root"]}
{"id": "C82", "title": "What is uploaded to the converting FTP server is there", "statement": "For every sequence of uploads: if the server reports that an upload worked, the file is there afterwards, a plain file under its name byte for byte, a raw file as the DNG file made from its bytes and, if originals are kept, under its name as well; and it stays there as long as no later upload makes a file of the same name. Other files are never touched. (False if the end of the DNG file can't be written; raw files of the same name with different extensions make the same DNG file.)", "quantifier": "all sequences of uploads, names, contents, options, results of the converter and failures of calls", "why_tests_cant": "Histories of uploads are unbounded, and failures of writes can't be arranged in tests.", "anchors": ["bin/dnglab/dnglab-lib/src/ftpconv.rs: FtpState::stor_file, is_ext_supported", "embedftp/src/client.rs: put_file"]}
{"id": "C83", "title": "Demosaicing fills in colours without inventing any, whatever the threads do", "statement": "For every Bayer pattern, every area of the sensor and all samples, the developed picture is a fixed function of the samples, independent of how the parallel passes are scheduled: no two threads touch the same value unless both only read it, and nothing outside the picture is read. Each pixel keeps the sample measured there in the channel of its colour; a field of one colour stays that colour; evenly changing grey stays grey away from the outermost pixels. The half-size and the X-Trans method give the means of the samples of each colour in the block or in the 5 x 5 surroundings. (False for pictures 4 or 5 pixels wide, where the program hangs, and for patterns with greens in columns; the X-Trans method doesn't keep the samples.)", "quantifier": "all four Bayer patterns, areas, sizes, samples and all schedules of the row tasks", "why_tests_cant": "Schedules of the threads can't be enumerated by tests, and the pictures are unbounded.", "anchors": ["rawler/src/imgop/sensor/bayer/ppg.rs: PPGDemosaic::demosaic, interpolate_borders, interpolate_green, interpolate_rb_at_green, interpolate_rb_at_non_green", "rawler/src/imgop/sensor/bayer/superpixel.rs: Superpixel3Channel::demosaic", "rawler/src/imgop/sensor/xtrans/bilinear.rs: interpolate_bilinear", "rawler/src/imgop/sensor/bayer/mod.rs: expand_bayer_rgb"]}
{"id": "C85", "title": "Developing shows the colours the camera saw", "statement": "For every camera whose colour matrix tells lights apart and whose channels all see white, every white balance that makes the channels equal on white and every sRGB colour in front of the camera, the developed pixel is that colour, for three and for four colour sensors; whatever is equal in all channels after the white balance is grey, however bright. No colour is negative. The matrix for D65 is used whenever there is one, else the first of A, B, C, D50, D55, D75, daylight, flash, adapted to D65, else the camera is taken to record XYZ; a white point becomes coefficients that make the camera's response to it 1. (False in parts: a matrix for another illuminant is adapted the wrong way round, colours brighter than white stay brighter than white, a three-colour picture with a matrix of four rows isn't grey on grey, and a four-colour camera without a D65 matrix can't be developed.)", "quantifier": "all colour matrices, white balances, pixels and illuminants", "why_tests_cant": "Matrices and pixels range over all numbers; the elimination must work for every invertible matrix.", "anchors": ["rawler/src/imgop/matrix.rs: pseudo_inverse, normalize, multiply", "rawler/src/imgop/raw.rs: map_3ch_to_rgb, map_4ch_to_rgb, clip_euclidean_norm_avg", "rawler/src/imgop/chromatic_adaption.rs: adapt_bradford", "rawler/src/imgop/develop.rs: develop_intermediate (Calibrate)", "rawler/src/imgop/xyz.rs: xy_whitepoint_to_wb_coeff"]}
{"id": "C84", "title": "A developed picture shows the part of the sensor it should", "statement": "For every selection of processing steps, every Bayer or X-Trans sensor of even size, every active area and every default crop within it, developing succeeds and the picture is exactly as large as the crop (else the active area, else the sensor) and pixel (r, c) belongs to place (crop.y + r, crop.x + c) of the sensor: before colours are converted its channel measured there is the sample of that place, black level taken off and scaled to 0..1 with the levels of its place in the 2 x 2 pattern. The same for pictures already in three colours. (False for those with an active area that does not start in the corner: the crop is moved although the active area is not cut out. Crops that leave the active area, Fuji sensors with an active area and black-is-zero pictures panic.)", "quantifier": "all step lists, photos, areas, levels and thread schedules", "why_tests_cant": "Areas, steps and sizes combine without bound, and demosaicing runs in threads.", "anchors": ["rawler/src/imgop/develop.rs: RawDevelop::develop_intermediate", "rawler/src/rawimage.rs: RawImage::apply_scaling, as_bayer_array", "rawler/src/imgop/mod.rs: Rect::adapt, Rect::scale", "rawler/src/imgop/raw.rs: correct_blacklevel"]}
{"id": "C86", "title": "Pictures of diagonal Fuji sensors are turned upright", "statement": "For sensors whose rows or columns are shifted by half a step against each other, every sample of the active area comes to its place on a square lattice turned by 45 degrees, all other places are zero; the developed picture is turned back by 45 degrees about its centre. The turned picture has as sides the diagonals of squares with sides T and S - T, rounded down, the longer first; every pixel shows the point of the lattice it comes from: the linear interpolation of the four pixels around it, at the edge a pixel at most half a step away. Nothing is brighter or darker than the picture, a picture of one colour keeps it, an even gradient stays an even gradient; no size or rotation width makes the program abort. (False in parts: the lower left pixel can be black, an odd number of shifted rows makes the program abort, and with the extra quarter turn the crop area is computed for another size than the picture has.)", "quantifier": "all sensor sizes, active areas, samples and rotation widths", "why_tests_cant": "Sizes and samples range over all numbers; whether a pixel is skipped depends on the rounding of irrational diagonals.", "anchors": ["rawler/src/imgop/fuji_rotate.rs: fuji_normalize_rotation, fuji_calc_dimension, rotate_45cw", "rawler/src/decoders/raf.rs: rotate_image"]}
{"id": "C87", "title": "Sensors with four colours are demosaiced faithfully", "statement": "For every 2 x 2 block of four different filter colours, every order of the channels and every area of the sensor with at least two rows and columns, each channel of each pixel of the full-size picture is the mean of the samples of that colour at most one row and one column away, so every sample is kept in its channel and a field of one colour comes back as that colour; the half-size picture holds in each pixel the four samples of a 2 x 2 block, each in the channel of its colour, whatever the parity of the corner of the area. Smaller areas and other numbers of channels make the program abort.", "quantifier": "all blocks of four different colours, channel orders, areas, sensor sizes and samples", "why_tests_cant": "Sample values, areas and sizes range over all numbers; corners, edges and interior are coded apart and each must agree with the others for every parity.", "anchors": ["rawler/src/imgop/sensor/bayer/bilinear.rs: Bilinear4Channel", "rawler/src/imgop/sensor/bayer/superpixel.rs: Superpixel4Channel", "rawler/src/cfa.rs: PlaneColor"]}
{"id": "C88", "title": "The TIFF file of a developed picture holds the picture and its metadata", "statement": "Developing a raw image to a TIFF file writes a file that a TIFF reader reads as one directory. Its tags give the size of the picture, the number and depth of the samples and where the LZW strips are, and every sample found there is the brightness of that pixel and channel on a scale of 0 to 65535. Make, model and orientation are those of the raw image, date, artist and copyright those of the raw file, and the directory points to the EXIF and GPS data of the raw file. Pictures wider or longer than 65535 pixels are described with a wrong size, and empty pictures abort the program.", "quantifier": "all pictures of one, three or four channels of every size, all metadata, all lossless codecs", "why_tests_cant": "Sizes, brightnesses, the number of strips and the lengths of the metadata that shift every offset range over all values.", "anchors": ["rawler/src/imgop/develop.rs: RawDevelop::develop", "rawler/src/formats/tiff/writer.rs: write_strips_lzw, DirectoryWriter, TiffWriter", "rawler/src/imgop/mod.rs: convert_from_f32_scaled_u16", "rawler/src/decoders/mod.rs: RawMetadata::write_exif_tags"]}
{"id": "C89", "title": "QuickTake 100 pictures are decoded as coded", "statement": "For every file of an Apple QuickTake 100 with a picture of even width up to 640 and at most 480 rows, whose header may give the sides in either order, the decoder returns a picture wider than high with the orientation noted in the file; each sample is the camera's curve, up to dithering, at the byte described by the codes in the file: a prediction from the neighbouring samples of that colour plus a coded step. Files with less than three bits per sample, square pictures and larger pictures give no picture.", "quantifier": "all files, sizes and codes", "why_tests_cant": "Each sample depends on all codes before it; the border values are kept in cells around the picture that are overwritten while decoding.", "anchors": ["rawler/src/decoders/qtk.rs: raw_image, decompress_quicktake_100", "rawler/src/bits.rs: LookupTable", "rawler/src/pumps.rs: BitPumpMSB"]}
{"id": "C90", "title": "Kodak KDC pictures are decoded as stored", "statement": "For every complete uncompressed DC120 file, each row of the picture is a row of the file turned by the number of places the camera uses for it, so that no sample is lost or doubled. For every DC120 JPEG file, the samples are the mosaic of the JPEG picture: greens doubled, reds and blues summed over two pixels, at most the white level. For other KDC files, the picture has the header's size plus 80 columns and 70 rows and its samples are the 12 bit numbers from the place given by the offset tag; missing data gives an error. The white balance is that of the maker note.", "quantifier": "all files, tags and JPEG pictures", "why_tests_cant": "There are 976 rows with different shifts, and arbitrary tags and file lengths; the error paths depend on all of them.", "anchors": ["rawler/src/decoders/kdc.rs: raw_image, get_wb, decode_dc120, decode_dc120_jpeg", "rawler/src/rawsource.rs: subview_until_eof", "rawler/src/decompressors/packed.rs: decompress_12be"]}
{"id": "C91", "title": "Phase One sensor calibration is applied to the right pixels", "statement": "For every calibration table and every picture, each pixel is changed by the curve of the sensor quadrant it is in, and the curve goes from each control point to the next on a straight line; black levels of rows and columns are those of the pixel's row, column and half of the sensor; the result is limited to 16 bits. Polynomial curves and multipliers change the half, quadrant or sensor they are for, and a flat field multiplies each pixel by the factor between the four grid nodes around it. A bad column is replaced from its neighbours and nothing else is changed. No value is turned into an unrelated one.", "quantifier": "all tables, splits, pictures, sizes and lists of defects", "why_tests_cant": "There are 65536 values for each of four curves through arbitrary points, at arbitrary splits; wrong values appear only for certain points or at the picture's edges.", "anchors": ["rawler/src/decoders/iiq.rs: correct_raw_q_linearization, correct_raw_q_combined, correct_raw_blacklevel, correct_raw_defects, fix_bad_column, correct_raw_poly_half, correct_raw_poly_full, correct_raw_q_mul, correct_raw_flatfield", "rawler/src/imgop/spline.rs: Spline"]}
{"id": "C92", "title": "ARRI, Epson ERF, Mamiya MEF, Kodak DCS and headerless pictures are decoded as stored", "statement": "For every file, size and place of the data, each sample of the decoded picture is the packed value that the file stores for it (for Kodak DCS, the entry of the file's table up to the dither), and the white balance, black levels, model name and metadata are those at their places of the header. A file that lacks a tag or a part of the data gives an error, and nothing aborts.", "quantifier": "all files, header values, sizes, offsets, tables and camera sizes", "why_tests_cant": "Sample files cover one size per camera; header values, offsets and the length of the file are arbitrary, and only certain lengths are accepted wrongly.", "anchors": ["rawler/src/decoders/ari.rs: raw_image, raw_metadata, get_wb", "rawler/src/decoders/erf.rs: raw_image, get_wb, get_blacklevel", "rawler/src/decoders/mef.rs: raw_image", "rawler/src/decoders/dcs.rs: raw_image", "rawler/src/decoders/nkd.rs: raw_image", "rawler/src/rawsource.rs: subview, subview_until_eof_padded"]}
{"id": "C93", "title": "Leaf MOS, Hasselblad 3FR and Kodak DCR files give the picture, names and white balance they hold", "statement": "For every file: the make and model are the texts between their XMP tags; the white balance follows from the numbers of the file; black and white levels are those of the file; uncompressed samples are the 16 bits stored for them in the file's byte order, and compressed data are decoded from the place the file names. A file that lacks one of these gives an error or no white balance, and nothing aborts.", "quantifier": "all files, texts, metadata blocks, sizes and offsets", "why_tests_cant": "Texts and metadata blocks are arbitrary; aborts need tags in an unusual order, an empty model or a block at the end of the metadata.", "anchors": ["rawler/src/decoders/mos.rs: new, raw_image, get_wb, xmp_tag", "rawler/src/decoders/tfr.rs: raw_image, get_wb", "rawler/src/decoders/dcr.rs: raw_image, get_wb", "rawler/src/decompressors/packed.rs: decompress_16le, decompress_16be"]}
{"id": "C94", "title": "Phase One notes and calibration tables are read as stored", "statement": "For every Phase One file, the note of a tag is the number or text of the last entry with that tag, and each sensor correction is given by the numbers of the last table of its kind; nothing outside a table is used. A file whose directory is incomplete is an error, a complete file is read, and nothing aborts.", "quantifier": "all files, directories, tags, table kinds, sizes and places", "why_tests_cant": "Directories list arbitrary tags in any order, several times, with places anywhere in the file; wrong reads show only for what follows a table or at the end of the file.", "anchors": ["rawler/src/decoders/iiq.rs: new_makernote, new_sensor_correction"]}
{"id": "C95", "title": "A Phase One file gives the picture its notes describe", "statement": "For every Phase One file, the picture is decoded from the data and in the format that the notes name, with the size they give, and the sensor corrections are applied one after the other in a fixed order, beginning with the black level; white balance is the three numbers at the place the notes give. A file that lacks one of these, or has an unknown format, is an error, and nothing aborts.", "quantifier": "all files, notes, formats, sizes and calibrations", "why_tests_cant": "Notes and places are arbitrary; a wrong order of corrections changes pixels only for some calibrations, and aborts need formats that no sample file has.", "anchors": ["rawler/src/decoders/iiq.rs: raw_image, correct_raw, get_wb, dimension, data_offset, strip_offset, split_offsets, split_blacks, blacklevel"]}
{"id": "C96", "title": "Foveon X3F directories are read as stored, and pictures are refused with an error", "statement": "For every X3F file with a complete directory of version 2.0 or later, all entries are read in order with their place, length and name, and the header of each image with its type, format, size and pitch. An older or incomplete directory is an error, decoding a picture is an error since it is not implemented, and nothing aborts.", "quantifier": "all files and directories", "why_tests_cant": "Places, counts and names come from the file and are arbitrary; aborts need places at or behind the end of the file.", "anchors": ["rawler/src/decoders/x3f.rs: is_x3f, X3fFile::new, X3fDirectory::new, X3fImage::new, raw_image"]}
{"id": "C97", "title": "The data block of Fujifilm RAF files is read as stored", "statement": "For every RAF file, the sizes, crop, white balance, layout and colour pattern of its data block are those of the last entry for each, whatever other entries are between; crop, size, white balance and X-Trans pattern follow from them; the embedded JPEG is the part of the file that the header names. Too many entries or parts outside the file are an error, and nothing aborts.", "quantifier": "all blocks, entries, lengths and files", "why_tests_cant": "Entries have no type and are found only by adding up lengths; one wrong length moves all later entries.", "anchors": ["rawler/src/decoders/raf.rs: parse_raf_format, get_wb, normalize_wb, get_crop, get_xtrans_cfa, get_alt_layout, read_embedded_jpeg"]}
{"id": "C98", "title": "Fujifilm pictures that are not compressed are decoded as stored", "statement": "For every RAF file, size and depth, each sample of a picture that is not compressed is the number the file stores for it: eight tiles one after the other for the DBP of the GX680, packed or whole numbers of 12, 14 or 16 bits for the others. A file with too few bytes is an error. The view of the file that the samples are read from has exactly the bytes asked for, then 16 bytes of padding; a view that ends behind the file is an error.", "quantifier": "all files, sizes, depths and byte orders", "why_tests_cant": "Sizes come from the file; tiles and rows that do not fill a whole number of bytes or tiles need sizes no sample has.", "anchors": ["rawler/src/decoders/raf/dbp.rs: decode_dbp", "rawler/src/decoders/raf.rs: raw_image", "rawler/src/rawsource.rs: RawSource::subview, subview_padded, subview_until_eof_padded"]}
{"id": "C99", "title": "Black levels of Fujifilm pictures are those of the file", "statement": "For every RAF file whose Fujifilm directory has one black level per colour of the pattern, the picture has these levels in the same order. Without them the levels of the camera are used. No file aborts the program.", "quantifier": "all lists of levels, all sizes of the colour filter pattern", "why_tests_cant": "The number and values of the levels come from the file and the size of the pattern from the file or the camera; samples have matching ones.", "anchors": ["rawler/src/decoders/raf.rs: get_blacklevel", "rawler/src/rawimage.rs: BlackLevel::new"]}

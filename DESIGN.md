# Formal model of dnglab in Lean 4

## Trusted base

* Lean 4.33.0's kernel. Every theorem listed in `MANIFEST.json` depends on no axioms other than
  `propext`, `Classical.choice` and `Quot.sound`. No `sorry`, `native_decide`, `bv_decide`, no own axioms.
* The reading of the Rust sources: each model definition cites the file and lines it models and says
  where it simplifies. Nothing here executes the Rust code.

## Conventions of the model

* Machine integers are `Nat`/`Int`. Where Rust truncates (`as u16`, shifts in a `u64`), the model truncates
  with an explicit `%`; where Rust would panic (index out of range, overflow in debug builds, `unwrap`,
  `assert!`) the model returns `Except.error .panic`; where Rust returns `Err` it returns `Except.error .fail`.
  The one result type is `R α := Except Err α`.
* Bytes and samples are `Nat`s together with an explicit range hypothesis (`< 256`, `< 65536`) in the theorems.
* `&mut` becomes a returned new value. `for`/`while` become folds or fuelled recursion; running out of fuel is
  `.error .panic` and the theorems show that it does not happen.
* Rayon parallel loops over disjoint pieces are modelled as independent per-piece computations; the disjointness
  that makes this legitimate is itself property C09.
* Not modelled: wall-clock, memory exhaustion, logging, floating-point image processing (demosaic, colour),
  the maker-note metadata parsers, SIMD multiversioning (same source), third-party crates (zune-jpeg, jxl-oxide,
  libflate/flate2, image, tokio). Third-party calls that a property needs are parameters with the assumed
  behaviour written as a hypothesis.

## Layout

* `lean/Verif/Base.lean` — result type, loop combinators, bit strings.
* `lean/Verif/Model/*.lean` — the model, one file per source file group, each definition citing `/repo`.
* `lean/Verif/Spec/*.lean` — small specifications, independent from the model.
* `lean/Verif/Proofs/*.lean` — helper lemmas.
* `lean/Verif/Props/*.lean` — the property theorems and, beside each, an `example` showing the hypotheses are met.

## Plan per property

| id | what is modelled | how it is proved |
|----|------------------|------------------|
| C01 | `LjpegCompressor` (scan, Huffman builder, header, body) and `LjpegDecompressor` (marker parser, DHT, table, cache, bit pump, predictors) byte for byte | refinement: encoder = bit list, pump = bit list, Huffman decode inverts encode, predictor symmetry mod 2^16, loop invariant over raster order |
| C02 | C01 plus `ImageTiler`, `IntoTilesIter`, tile decode, crop | composition of C01, C08, C09, C30 |
| C03 | `HuffTableBuilder` | Kraft-sum invariant over the merge loop and over the length-limiting loop; canonical codes from Kraft |
| C04 | `BitstreamJPEG`, `BitPumpJPEG` | abstraction to bit strings, induction over writes and reads |
| C05 | `HuffTable::initialize`, `huff_decode`, `huff_decode_slow`, `MockPump` | case split on cache hit, stream-prefix argument |
| C06 | parameter checks of encoder/decoder | negation by witness (bit depth 8), partial for 10..16 |
| C07 | as C01 with point transform | negation by witness, partial for p = 0 |
| C08 | `ImageTiler` | index arithmetic, induction on rows |
| C09 | `IntoTilesIter`, `TileIterMut` as index sets | arithmetic: disjoint, in range, covering |
| C10-C12 | `BitPumpMSB/LSB/MSB32` | refinement to bit strings; C12 trailing word negation + partial |
| C13-C14 | `packed.rs` unpackers | refinement to bit fields; negations for widths off the group size, partial |
| C15 | `extend_binary_floating_point` | value function into rationals-as-integers, case analysis and normalisation loop invariant |
| C16 | `LookupTable` | inequalities; negation of the no-overflow part |
| C17 | strip writer and 16-bit LE unpacker | composition |
| C18-C22 | TIFF value/entry/directory writer and reader | round trip by cases on type; invariant over write histories; negations for known defects |
| C23-C25 | CFA, black level, rectangles through the DNG tags | modular arithmetic; negations for defects, partial theorems |
| C26-C27 | `OriginalCompressed` with an abstract block codec | induction over blocks |
| C28-C31 | pixel array operations | index arithmetic |
| C32-C38 | convert/extract/develop jobs over an abstract file system and schedules | invariants over traces; negations by witness schedules |
| C39-C42 | embedded FTP server | refinement and invariants over command histories |
| C43 | Nikon decrypt | xor involution, induction |
| C44 | black level correction kernel index coverage | negation for odd sizes, partial for even |
| C45 | `BitArray` | refinement to bit lists |
| C46 | `consume_zerobits`, `get_ibits_sextended` and the other derived pump operations | refinement to bit strings; a run of zeros is counted exactly; negation for an all-zero tail |
| C47 | floating-point predictor of `DeflateDecompressor` | induction over the delta loop, byte planes inverted by a specified encoder; negation for 32 bit subnormals |
| C48 | Sony decryption (`sony_decrypt`) | xor involution over the pad generator |
| C49 | CR3 line decoders (run lengths, MED, adaptive Rice codes) against a separate encoder specification | induction over the samples of a line with the decoder state as invariant, then over the lines |
| C50 | CR3 header, tile layout, plane decoding, assembly, for images without wavelet levels, against a specified file layout | header records by induction; the assembly writes only samples of the picture and covers every position; negation for several rows of non-square tiles |
| C51 | the same | every write keeps length and bound |
| C52 | `IFD::new`, `Entry::parse`, `GenericTiffReader` against a layout relation on byte strings (`Spec/TiffFile`) | mutual induction over the tree of directories; negation for offsets of type 13 |
| C53 | the FTP command handlers (as C39-C42) | case analysis per command against a relation that says which change was asked for; negations by concrete sessions |
| C54 | the inverse wavelet transform with its rotating line buffers, for any number of levels and any source of band lines, against the forward transform of JPEG 2000 (`Spec/Wavelet`) | one line; one level (invariant: which lines of the picture the buffers hold); all levels by recursion; shift to tiles; every set of bands has a picture (synthesis); negations by inversion of runs |
| C55 | inverse quantization, the coded tables of quantization parameters, the layout of the bands and the decoder of a plane with levels (`CrxQuant`), against a coder (`Spec/CrxQuant`, `Spec/CrxPlane`) | one line scaled; a band (the zeros of the line above survive scaling); table of parameters; sizes of the bands for all widths modulo 8; composition with C54 |
| C56 | `decode_arw1`, `decode_arw2`, `calculate_curve` (`Arw`) against a coder written from the format (`Spec/Arw`) | one code word is read back; a loop that reads a code word per step reads the whole run (`foldlM_code`, `forN_code`); groups; the curve by its increments; negations for odd heights, widths not a multiple of 32, missing padding |
| C57 | `do_decode` of pef.rs (`Pef`), the code tables of `HuffTable` (`Ljpeg`), against a coder written from the format (`Spec/Pef`, `Spec/HuffCode`) | the decoder's table for a canonical code reads back each word (`HuffShift`); sorting the stored words by value finds their canonical order; two-row prediction as an invariant of the rows (`TwoRow`); negations for odd widths and tables that are not canonical |
| C58 | `do_decode` and `create_hufftable` of nef.rs (`Nef`) against the format as documented by dcraw (`Spec/Nef`) | the six tables agree with the format's codes word for word; decoding of words with left out digits (`HuffShift`); two-row prediction, the change of tables and the random numbers as an invariant of the rows; the metadata layout read back; the interpolated curve by an invariant; negations for lossless files (dithered), odd widths, values beyond the curve |
| C59 | the decoder part of `LjpegDec` against the file format of ITU-T T.81 (`Spec/Jpeg`), independent of the encoder | record of the tables seen as an invariant of the marker loop (last one wins), headers read back by induction over components, differences by `HuffShift`, scan by an invariant over the samples of the window (written ones, untouched rest); negation for comments that contain marker bytes |
| C60 | `decode_ljpeg_422`, `decode_ljpeg_420`, `decode_sony_ljpeg_420` in `LjpegDec` against `Spec/JpegSub` (blocks of brightness and colour samples with the sample each is compared with) | headers and differences from C59; invariant over the blocks written so far, each block by the chain of its differences |
| C61 | `Model/Cr2`: `raw_image` from the JPEG data to the image (fields, sizes) | `Spec/Cr2.order` lists the places of an image in the order of the slices; induction over the slices and rows with an invariant on what the buffer holds; joined with C59 |
| C62 | `Model/Cr2`: `interpolate_yuv`, `convert_to_rgb`, the copy of two lines at a time | invariants on what the buffer holds through each loop; joined with C60. For four pixels per colour sample the claim is false (`C62_four_rows_left_out`); the `_partial` theorems say what comes out instead |
| C63 | `Model/ArwLjpeg`: `decode_ljpeg` with its two closures, `decompress_strips_fn` | invariants on what a strip holds, through samples, lines, tiles; joined with C59, C60, C62. `C63_other_sizes`: by inversion of the last write of a strip. `C63_yuv_partial` stops before the conversion to RGB, which is in `f32`. `C59_every_picture` and `C60_every_picture`: every picture has a file, so the hypotheses can be met by any image |
| C64 | `Model/LjpegDec.decodeHasselblad`, `Model/Leaf` | code words and digits read from a reader of 32 bit words that is followed by other bytes (`Proofs/Hassel`); invariant on the sums, which are kept modulo 2¹⁶; for Leaf: induction over the strips for the markers, invariants on samples, rows, strips (`Proofs/Leaf`), then the order of rows. `C64_every_hasselblad`, `C64_every_leaf`: every image has a file. `C64_leaf_odd_width` by inversion of the last write of a strip |
| C65 | `Model/Orf` | the coding as a relation between samples and bits (`Spec/Orf`); loop for the number of digits solved by induction; look-up table of leading zeros by its whole domain; invariants on samples, pairs, rows (`Proofs/Orf`). `C65_every_picture`: every image has a file. `C65_bound_needed`: a picture of 16 bit samples on which the code panics |
| C66 | `Model/Pana` | packets and codes as data (`Spec/Pana`); every 128 bit word is the packet of a code (`Proofs/PanaFile`); the pump of version 4 reads the bits of the packet, by arithmetic of positions; invariants over the samples of a packet (`Proofs/Pana4`, `Proofs/Pana6`). Partial: version 6 with values of 15 or more, version 4 split outside packet 512 of a block, version 7 with 14 bits; counterexamples for the rest |
| C67 | `Model/Srw` | fields in two's complement, choices of the camera as data (`Spec/Srw`); word pump with a position (`Proofs/Srw`), invariants over pixels, groups and rows for each generation (`Proofs/Srw`, `Proofs/Srw3`); a file for every picture. Odd heights of the first generation and 16 bit depth of the third fail, with witnesses |
| C68 | `Model/Bmff` | boxes as trees with a serialiser (`Spec/Bmff`), induction over the tree for the reader driven by tables (`Proofs/BmffTree`), lookups as paths in the tree (`Spec/BmffFind`), a measure for the loops (`Proofs/BmffStop`). Endless loop, panics and lost tracks for other files, with witnesses |
| C69 | `Model/Bmff` | chunks and samples by counting (`Spec/BmffSample`); induction over the runs for the first sample numbers and the search (`Proofs/BmffSample`); composed with C68 for whole files. False for tables of three runs unless all but the last two have one sample per chunk, with witnesses |
| C70 | `Model/Fuji` | the format as an encoder (`Spec/Fuji`: lines of a colour, predictions, contexts, adaptive codes, strips, file); each code read back (`Proofs/FujiCode`), then samples, passes, blocks, strips and the file by induction with an invariant tying line buffer, statistics and bit position to the encoder (`Proofs/FujiLine`, `FujiStep`, `FujiPass`, `FujiBlock`, `FujiMove`, `FujiStrip`, `FujiFile`); the order of strips is a permutation |
| C71 | `Model/Crw` | the format as an encoder with its own copy of the tables (`Spec/Crw`); words of a full canonical table are read back (`Proofs/Crw`, from the lookup lemmas of C05), run/level coding by induction over the differences of a block, then samples, blocks, low bits and the file (`Proofs/CrwFile`) |
| C72 | `Model/Ciff` | the format as a relation between file and tree, free in its layout (`Spec/Ciff`); induction over levels, invariant over the entries of a directory (`Proofs/Ciff`); a writer shows that every tree has a file (`Proofs/CiffFile`); joined with C71 to whole files |
| C73 | `Model/Iiq` | the formats as bits a writer produces from its choices (`Spec/Iiq`); invariant over the columns (`Proofs/Iiq`) or the groups of eight (`Proofs/IiqS`); a writer shows that every picture has a file |
| C74 | `Model/Kodak` | the format as bytes written from the samples (`Spec/Kodak`); invariant: buffered bits and unread words are the digits still to come (`Proofs/Kodak`), then induction over segments and rows with C16 for each sample |
| C75 | `Model/Exif` | tables of tags and types written from the EXIF standard (`Spec/Exif`); the fields of `Exif` as a list, on which each entry read acts as a map (`Proofs/Exif`), hence the directories as maps (`Proofs/ExifDirs`, `ExifWrite`), and the file by C19 (`Proofs/ExifRoot`) |
| C76 | `Model/Jfif` | one turn of the parse loop as a function; parts and their bytes written from the JPEG format (`Spec/Jfif`); induction over the parts; ending by the reader's position, which every turn moves ahead by two bytes except in one kind of state, in which the loop stays for ever (`Proofs/Jfif`) |
| C77 | `Model/Mrw` | the block loop as a function of the bytes; blocks and files written from the format (`Spec/Mrw`); induction over the blocks; unpacking from C13; the maker note window by induction over the numbers read (`Proofs/Mrw`) |
| C78 | `Model/Pana8` | bit reader and decoder as functions of the bytes; strips encoded from the format (`Spec/Pana8`); invariants over samples, groups, row pairs and strips (`Proofs/Pana8`, `Pana8Strip`, `Pana8Image`); the curve by cases on its pieces |
| C79 | `Model/Lens` | the database as a parameter; agreement and order of fractions stated on rational numbers (`Spec/Lens`); cases on the four stages (`Proofs/Lens`) |
| C80 | `Model/Loader` | database as a list of entries with modes and aliases, values of settings abstract; specification `Is` of a camera setting by setting; induction over the filling of the tables; signatures as prefixes (`Spec/Loader`, `Proofs/Loader`) |
| C81 | `Model/MakeDng` | file system of C33 with inodes, decoders and DNG writer as a parameter; texts with exact grammar in `Spec/MakeDng`; tags as a list of changes in the order of the code |
| C82 | `Model/FtpConv` | file system of C33, converter as a parameter, uploads as a list; induction over the uploads after the one in question (`Spec/FtpConv`, `Proofs/FtpConv`) |
| C83 | `Model/Demosaic` | row tasks as programs of single loads and stores, interleaved by an arbitrary schedule; invariant over schedules (cells stored to are never loaded by another task), then each pass as one update of the picture; result equated with a direct formula, from which kept samples, flat fields and ramps follow (`Spec/Demosaic`, `Proofs/DemosaicPar`, `Proofs/Demosaic`, `Proofs/DemosaicPpg`, `Proofs/DemosaicOther`) |
| C85 | `Model/Color` | invariant of the elimination: the left half is the right half times the products of the columns, kept by every row operation; pivots are nonzero because a row with zero product would be a light the camera can't see; so the pseudo inverse undoes the matrix, and normalized rows send white to white (`Spec/Color`, `Proofs/Color`); wrong direction of the adaption by evaluating the matrices on the two whites |
| C84 | `Model/Develop` | developing as a relation (PPG runs in threads); samples after correction by `C44`, the demosaiced picture by `C83`, cutting by `C30`; one lemma says that the crop, seen from the area that is there, is the crop minus that area's corner (`Spec/Develop`, `Proofs/Develop`) |
| C86 | `Model/FujiRotate` | nested loop invariant for the arrangement: samples done are at their places, the rest is zero, places are distinct by unique division; bounds of the turned coordinates from the sum of the sides, `cos45 * (W + H) <= w` up to the precision of the constant; sides by comparing squares (`Spec/FujiRotate`, `Proofs/FujiRotate`, `Proofs/FujiPlace`) |
| C87 | `Model/Demosaic4` | the samples of one colour around a place are a product of the rows and columns of one parity; nine cases of position, four colours each; four stores to different channels determine a pixel (`Spec/Demosaic4`, `Proofs/Demosaic4`) |
| C88 | `Model/DevelopTiff` | the file is a session of the TIFF writer (C19): GPS, EXIF, one block per strip, root; the samples of a strip are a slice of the picture; tags of the root survive later ones of other numbers (`Spec/DevelopTiff`, `Proofs/DevelopTiff`) |
| C89 | `Model/Qtk` | invariants of the working array: finished rows with their borders, the row in progress, the untouched half of the chessboard; three passes (`Spec/Qtk`, `Proofs/Qtk`); the number of bits read is counted to show that short files fail |
| C99 | `Model/RawSource` | the subviews of `rawsource.rs`, with sums that wrap as in release builds | a lack of memory is not modelled |
| `Model/RafBlack` | direct, by cases on the entry; the last part of the claim is false, and the abort is proved |
| C98 | `Model/RafDbp`, `Model/RawSource` | invariants of the three loops: tiles, lines, samples; for the choice of the unpacker cases on hints and depth, with the theorems of C13 |
| C97 | `Model/Raf` | induction on the entries of a block, for all blocks written by a small writer in `Spec/Raf`; entries whose length is no multiple of their number size are a counterexample (`C97_odd_lost`) |
| C96 | `Model/X3f` | induction on the entries; the sentence about aborts is false (`C96_outside_aborts`, `C96_entries_abort`, `C96_cut_aborts`) |
| C95 | `Model/IiqRaw` | C73, C91 and C94 applied one after the other; the last sentence is false (`C95_old_formats_abort`); files with tables of calibration: the order of all corrections is proved (`C95_order_all`) |
| C94 | `Model/IiqTab` | loop invariant: the map is given by the last entry so far; the tables by cases of their kind; the sentences on tables and aborts are false (`C94_defects_overrun`, `C94_defects_at_end`, `C94_no_calibration_aborts`, `C94_notes_abort`) (`Spec/IiqTab`, `Proofs/IiqTab`) |
| C93 | `Model/Mos` | first place of a pattern and the split of a text by induction; C13, C64 and C74 applied to the data at the offset; the last sentence is false (`C93_empty_model_aborts`, `C93_name_reversed_aborts`, `C93_hasselblad_white_balance`) (`Spec/Mos`, `Proofs/Mos`) |
| C92 | `Model/Small` | the header of the file and the packed formats of C13 and C16 applied to the data; data with zeros after the end; the last sentence is false (`C92_truncated_accepted`, `C92_zero_width_aborts`) (`Spec/Small`, `Proofs/Small`) |
| C91 | `Model/IiqCorr`, `Model/IiqPoly`, `Model/IiqFlat` | invariant of the loop that fills the segments and of the one that draws them; region invariants for the quadrants and the bad column; the last sentence is false (`C91_white_lost`) (`Spec/IiqCorr`, `Proofs/IiqCorr`, `Proofs/IiqCorr2`, `Proofs/IiqCorr3`); the flat field by nested loop invariants (`Spec/IiqFlat`, `Proofs/IiqFlat`) |
| C90 | `Model/Kdc` | row turning as `List.rotate`, a two-loop invariant for the mosaic, C13 for packed data; the JPEG decoder is a parameter (`Spec/Kdc`, `Proofs/Kdc`) |

Differences between code and property found while modelling are listed in the last section.

## What is modelled

Paths are below `rawler/src` unless they begin with `bin` or `embedftp`.

| model | code | left out |
|-------|------|----------|
| `LjpegEnc`, `HuffBuilder`, `JpegBitWriter` | ljpeg92.rs: `LjpegCompressor`, `HuffTableBuilder`, `BitstreamJPEG` | the test-only parts |
| `LjpegDec`, `LjpegHuff` | decompressors/ljpeg/{mod,huffman,decompressors}.rs | `decode_leaf` |
| `Pumps` | pumps.rs: MSB, LSB, MSB32, JPEG pumps and the derived operations | none of the pumps |
| `Tiles` | tiles.rs, the tile loop of decoders/mod.rs and dng/writer.rs | |
| `PixArray`, `Orientation` | pixarray.rs (crop, rotate, rows), imgop/mod.rs (crop, rectangles), decoders/mod.rs orientation | |
| `Packed`, `PackedFloat` | decompressors/packed.rs, decompressors/mod.rs line and strip drivers | dummy mode |
| `Float` | bits.rs float widening, decompressors/deflate.rs | zlib itself (parameter) |
| `Linearize` | bits.rs `LookupTable`, decoders/mod.rs `apply_linearization` | |
| `Strips` | dng/writer.rs uncompressed strips, formats/tiff/ifd.rs `strip_data` | 8 bit and float strips |
| `Tiff` | formats/tiff/{value,entry,writer,reader,ifd}.rs | maker-note specific parsing, `dump`, `exif` copies |
| `Dng` | cfa.rs, rawimage.rs `BlackLevel`, dng/{mod,writer}.rs and decoders/dng.rs for the tags of mosaic, black level and areas | colour matrices, opcodes, previews |
| `Original` | dng/original.rs | zlib and MD5 (parameters) |
| `Decrypt` | decoders/nef/decrypt.rs, decoders/arw.rs `sony_decrypt` | |
| `BitArray` | bitarray.rs | |
| `CrxLine`, `CrxImage` | decompressors/crx: rice, runlength, mdat, decoder, mod | rounded lines (mask > 0) |
| `CrxWavelet` | decompressors/crx/idwt.rs; decoder.rs:75-159 | tiles with a tile above (`tiles_top`): panic in the model |
| `CrxQuant` | decompressors/crx/iquant.rs, mod.rs `process_subbands`, mdat.rs `get_subband_row`, `setup_idx`, decoder.rs `PlaneLineIter` with levels | lines with rounded bits |
| `Arw`, `I32` | decoders/arw.rs `decode_arw1`, `decode_arw2`, `get_curve`, `calculate_curve` | ARW6, LJPEG tiles, SRF, metadata, `dummy` |
| `Pef` | decoders/pef.rs `do_decode` | metadata, uncompressed data, `dummy` |
| `Nef` | decoders/nef.rs `do_decode`, `create_hufftable`; bits.rs `clampbits` | sNEF, white balance, metadata other than NefMeta, uncompressed detection, `dummy` |
| `Verif/Model/Cr2.lean` | cr2.rs:111-251 (`raw_image` up to the pixels), 529-545, 623-660 (`interpolate_yuv`), 690-804 (`convert_to_rgb`) | tags, camera entry and makernotes are parameters; parsing the firmware string, `dummy`, the environment variable and `usize` overflow are not modelled |
| `Model/ArwLjpeg` | decoders/arw.rs: `decode_ljpeg`; decompressors/mod.rs: `decompress_strips_fn`; imgop/yuv.rs: `interpolate_yuv` (that of `Model/Cr2`) | tags are parameters; strips one after the other; `ycbcr_to_rgb` (`f32`) is a parameter |
| `Model/Leaf` | decoders/tfr.rs: `decode_compressed`; decoders/mos.rs: `do_decode`; ljpeg/mod.rs: `decode_leaf`; ljpeg/decompressors.rs: `decode_leaf_strip` | strips one after the other |
| `Model/Orf` | decoders/orf.rs: `decode_compressed` | the carry array as a record per parity |
| `Model/Pana` | decoders/rw2/v4decompressor.rs, v5decompressor.rs, v6decompressor.rs, v7decompressor.rs | threads as a map over strips; the pixel buffer of version 6 read from the end |
| `Model/Srw` | decoders/srw.rs:137-461, bits.rs:17-26 | `dummy` is false; the `if … else` chains for new lengths as in the code |
| `Model/Bmff` | formats/bmff (mod, ftyp, moov, mvhd, trak, tkhd, mdia, mdhd, hdlr, minf, vmhd, dinf, stbl, stsd, stts, stsc, stsz, co64, mdat, free, skip, vendor), formats/bmff/ext_cr3 (all), decoders/cr3.rs:123-162, 279-285, 525-532, 593-602 | one function for all box readers, driven by tables with one row per reader; out of memory for huge counts and text conversion are not modelled; the TIFF reader of the CMT boxes is a parameter |
| `Model/Fuji` | `decoders/raf/fuji_decompressor.rs`: header, parameters, quantisation tables, code reader, even/odd/interpolated samples, passes, blocks, strips | strips run one after another in any order (they write disjoint columns); `i32` arithmetic other than the gradient sums not checked; the virtual camera tables and cropping of `raf.rs` not modelled |
| `Model/Crw` | `decoders/crw.rs`: code tables, `do_decode`, `decode_compressed` | white balance and camera lookup not modelled; table number and size are arguments |
| `Model/Ciff` | `formats/ciff/mod.rs`: all but `get_f32`; `decoders/crw.rs`: `new`, `raw_image` up to the samples, `get_wb` | `HashMap` as a list, newest first; UTF-8 repair of names, camera lookup, floats and the Pro70's own packing are left out |
| `Model/Iiq` | `decoders/iiq.rs`: the four `decode_*` functions | the curve of IIQ S (`f32`) is a parameter; the dispatch on the format is in `Model/IiqRaw`, the makernotes are in `Model/IiqTab`, the sensor corrections are in `Model/IiqCorr`, `Model/IiqPoly` and `Model/IiqFlat` |
| `Model/Kodak` | `decoders/dcr.rs`: `decode_kodak65000`, `decode_segment` | the `ByteStream` is its unread suffix; the reading of the tags around it is left out |
| `Model/Exif` | `exif.rs`: `Exif`, `ExifGPS`, `new`, `extend_from_ifd`, `extend_from_gps_ifd`, `extend_from_lens`; `formats/tiff/writer.rs`: `fill_exif_ifd`, `fill_exif_root`, `transfer_entry`; `dng/convert.rs`: `internal_convert` from `load_metadata` to `close`; `dng/writer.rs`: `load_metadata`, `xpacket`, `original_file`, `close`; `decoders/mod.rs`: `RawMetadata::new`, `new_with_lens` | strings are UTF-8 bytes, `str::trim` a parameter; the writes and root tags made before (images, previews, base tags) are arbitrary; decoders that add metadata of their own after `Exif::new` are left out |
| `Model/Jfif` | `formats/jfif.rs`: all segment readers, `Jfif::parse`, `exif_ifd`, `xpacket`, `is_exif`; `decoders/mod.rs`:927-928 | the TIFF reader is a parameter (a directory or a failure for each position); positions do not overflow `u32`; loops run with an explicit number of turns |
| `Model/Mrw` | `decoders/mrw.rs`: `is_mrw`, `new_mrw`, the unpacking and the order of white balance in `raw_image`, the loop of `get_mly_wb` | the TIFF reader and the camera table are left out; `new_jfif` is left out except for its white balance; normalising white balance is floating point |
| `Model/Pana8` | `decoders/rw2/v8decompressor.rs` but for `CF2Params::new`; `BitPumpReverseBitsMSB` of `pumps.rs` | the settings are a parameter; the strips are decoded in order, in the code in parallel; the cache of the Huffman decoder is the lookup it is filled from; `at_mut` panics outside of the picture, as in builds with debug assertions |
| `Model/Lens` | `lens.rs`: `LensResolver::resolve`, `resolve_internal`, `with_camera`, `with_lens_keyname`; comparing `Rational` | reading of the TOML database, log messages and the panic by `RAWLER_FAIL_NO_LENS` are left out; `camera_make` and `lens_info` are not used by the code |
| `Model/Loader` | `decoders/mod.rs`: `RawLoader::new`, `get_decoder`, `check_supported_with_mode`, `check_supported_with_everything`; `camera.rs`: `update_from_toml`, `make_whitelevel`, `make_blacklevel`; `is_mrw`, `is_raf`, `is_ari`, `is_qtk`, `is_ciff`, `is_exif`, `is_x3f` | parsing of TOML and conversion of values (panics on wrong types) are left out; what the JPEG, BMFF and TIFF readers say is a parameter, making of the decoders is left out |
| `Model/MakeDng` | `makedng.rs`: `makedng`, `makedng_internal`, `get_input_path`, `InputUsage::from_str`, `InputSourceUsageMap::from_str`, tables of `LinearizationTableArgParser`; the tags of `write_rawimage`, `load_metadata`, `fill_exif_root` that compete with options | decoding of inputs and bytes of the DNG file are a parameter; all inputs are read at one moment after the output was opened; values of tags are abstract; predefined gamma tables (floating point) are left out |
| `Model/FtpConv` | `ftpconv.rs`: `stor_file`, `is_ext_supported`; `client.rs`: `put_file` | uploads run one after the other; the converter is a parameter; letters outside ASCII keep their case; setting of the time is left out |
| `Model/Demosaic` | `sensor/bayer/ppg.rs`, `sensor/bayer/mod.rs`, `superpixel.rs` (`Superpixel3Channel`), `sensor/xtrans/bilinear.rs` | samples are rational numbers, `f32` rounding isn't modelled; loads and stores are sequentially consistent and of single values; rows of `expand_bayer_rgb`, superpixels and X-Trans are filled from unchanging input and modelled without a schedule; `Superpixel4Channel` and `Bilinear4Channel` are left out |
| `Model/Color` | `imgop/matrix.rs`, `imgop/chromatic_adaption.rs`, `imgop/xyz.rs` (constants, `xy_whitepoint_to_wb_coeff`), `imgop/raw.rs` (`map_3ch_to_rgb`, `map_4ch_to_rgb`, `clip_*`), matrix choice of `develop.rs` | rational numbers: rounding, NaN and infinities of `f32` aren't modelled (division by zero gives 0); the euclidean norm is a parameter |
| `Model/Develop` | `imgop/develop.rs` (`develop_intermediate`), `rawimage.rs` (`apply_scaling`, `as_bayer_array`), `imgop/raw.rs` (`correct_blacklevel`), `Rect::adapt`, `Rect::scale` | rational numbers; the sRGB curve, `Bilinear4Channel` (given by `Model/Demosaic4` in `C84_four`) and `fuji_normalize_rotation` are parameters; `scale(0.5)` exact; writing the TIFF (`develop`) isn't modelled |
| `Model/FujiRotate` | `imgop/fuji_rotate.rs`, `rotate_image` of `decoders/raf.rs` | exact rational arithmetic with the exact values of the two `f64` constants; rounding of products and sums isn't modelled. The `dummy` mode isn't modelled |
| `Model/Demosaic4` | `imgop/sensor/bayer/bilinear.rs`, `Superpixel4Channel` of `superpixel.rs`, `PlaneColor` of `cfa.rs` | rational samples; stores are grouped by pixel |
| `Model/DevelopTiff` | `develop` of `imgop/develop.rs`, `write_strips_lzw` of `formats/tiff/writer.rs`, `convert_from_f32_scaled_u16` of `imgop/mod.rs` | the LZW encoder is a parameter taken to be lossless; rational samples, no NaN; little endian host |
| `Model/Qtk` | `decoders/qtk.rs` for the QuickTake 100 (not the RADC coding of the 150 and 200) | the working array is a function with checked bounds; no `i16` overflow is possible as all stores are clamped |
| `Model/Kdc` | `decoders/kdc.rs` without the DC50 (RADC coding) and the camera lookup | the JPEG decoder is a parameter; TIFF entries are lists of their values |
| `Model/IiqCorr` | `imgop/spline.rs`, the quadrant curves, the black level and the bad columns of `decoders/iiq.rs` | `f32` is rational or NaN; the reading of the tables is in `Model/IiqTab` |
| `Model/IiqPoly` | the polynomial curves and quadrant multipliers of `decoders/iiq.rs` | `f32` is rational |
| `Model/IiqFlat` | the flat field of `decoders/iiq.rs` | `f32` is rational; `mrow` and `mult` are functions |
| `Model/Small` | `decoders/ari.rs`, `erf.rs`, `mef.rs`, `dcs.rs`, `nkd.rs`, the subviews of `rawsource.rs` | the tags are parameters, as are the camera's hints and sizes; the white balance of ARRI is kept as the 32 bits of the number, that of Epson is rational; model names are bytes; blanks around the lens name are not removed |
| `Model/Mos` | `decoders/mos.rs`, `raw_image` and `get_wb` of `decoders/tfr.rs` and `decoders/dcr.rs` | texts are bytes in ASCII; `str::parse::<f32>` is a parameter; `f32` is rational, quotients of Leaf are kept as pairs; the crop of 3FR is not modelled |
| `Model/IiqTab` | `new_makernote` and the tables of `new_sensor_correction` in `decoders/iiq.rs` | `f32` numbers are given by a function of their bits; texts are not cut at a zero byte; the size of memory is not limited |
| `Model/IiqRaw` | `raw_image`, `correct_raw` and the functions for single notes of `decoders/iiq.rs` | the curve of IIQ S, the meaning of `f32` bits and the colours of the camera are parameters; white balance is kept as bits; the camera lookup and lens are left out |
| `Model/X3f` | `decoders/x3f.rs` except `format_dump` and `raw_metadata` (`todo!()`) | names are bytes; the EXIF reader and the camera lookup are one parameter |
| `Model/Raf` | `decoders/raf.rs`: `parse_raf_format`, `get_wb`, `normalize_wb`, `get_crop`, `get_xtrans_cfa` (letters), `get_alt_layout`, `read_embedded_jpeg` | `f32` is rational; the Fuji IFD and the other TIFF structures are not modelled here |
| `Model/RafDbp` | `decoders/raf/dbp.rs`, choice of the unpacker in `raw_image` of `decoders/raf.rs` | `dummy` is `false`; the decompressor is a parameter, hints and model name are flags |
| `Model/RafBlack` | `get_blacklevel` of `decoders/raf.rs` | the search for the entry is not modelled |
| `Path` | the part of `std::path` the tools use | non-Unix paths |
| `CliPlan`, `CliJobs` | bin/dnglab/dnglab-lib/src: filemap, convert, extract, process_raw, jobs | argument parsing, progress output |
| `Ftp` | embedftp/src | sockets, TLS, time stamps and permissions in listings |

Everything else is not modelled: the other camera-specific decoders and metadata, the contents of the lens and camera data bases, the RADC coding, `analyze.rs` and the developer tools.

## Findings

Each item marked with a theorem is proved of the model; the others were noticed while reading.

### LJPEG
* The encoder accepts bit depths 2 to 9 and zero components, the decoder refuses them (`C06_low_bitdepth_rejected`, `C06_no_component_rejected`).
* A point transform is applied by the encoder, never undone by the decoder (`C07_point_transform_not_undone`).
* A histogram without symbols panics the table builder (`C03_empty_histogram_panics`).
* A lone `FF` at the end of the data panics the bit pump (`C04_truncated_stuffing_panics`).
* A DHT segment whose code lengths overflow the table panics (`C05_overfull_table_panics`); a code that is not in the table decodes as a zero difference without error (`C05_invalid_code_is_silent`).
* A second SOF marker appends its components to those of the first.

### Images
* Tile padding for more than one sample per pixel repeats a sample, not a pixel (`C08_padding_is_not_a_pixel`).
* Mutable tile windows over a width that is no multiple of the tile width leave columns uncovered (`C09_ragged_width_not_covered`).
* Rotating an image without columns twice panics (`C28_empty_image_panics`); the slice crop returns fewer rows when the rectangle reaches below the image (`C30_slice_crop_short`).
* `deinterleave2x2` loses samples for odd sizes (`C31_odd_width_loses_samples`, `C31_odd_height_wrong`).
* Black level correction leaves the last row or column of odd sizes uncorrected (`C44_odd_width_uncorrected`, `C44_odd_height_uncorrected`).

### Packed samples
* The MSB32 pump misreads a partial last word (`C12_partial_word_wrong`).
* 12 bit rows of odd width, 10 bit rows whose width is no multiple of 4 and control-byte rows whose width is no multiple of 10 are wrong (`C13_*_wrong`, `C13_*_zeros`, `C13_*_shifted`); bit widths with rows that do not begin on a byte panic (`C13_generic_bias_panics`, `C14_unaligned_rows_panic`).
* `decompress_14le_unpacked_padded` reads big-endian words, `decompress_12le_16bitaligned` reads big-endian groups.
* `consume_zerobits` never returns on a tail of zero bits (`C46_zero_tail_never_returns`).
* 32 bit floats that are subnormal are corrupted or panic in the deflate decoder (`C47_single_subnormal_lost`).
* Lookup tables: a steep curve panics, white can wrap to black, values can leave the range of the neighbours, one-column images panic (`C16_*`).

### TIFF
* Lost on writing: a single float, embedded negative 8/16 bit numbers followed by others, strings after the first (`C18_*_lost`); an empty value panics (`C18_empty_value_panics`).
* Positions beyond 4 GiB repeat (`C20_beyond_4gib_same_offset`).
* A cyclic chain of directories never ends without a limit, and a limit is exceeded by one (`C21_*`).
* An empty sub-directory value of unknown type panics; entries at 4 GiB panic (`C22_*_panics`).
* A sub-directory whose offset has the TIFF type 13 (IFD) is not found: the first byte of the value is used as offset and the result is filed under 13 instead of the tag (`C52_ifd_type_lost`).
* If the last entry of a directory is broken, the pointer to the next directory is lost; five broken entries in a row end the directory.
* More than 4096 entries are cut silently; `new_root_with_correction` applies the correction twice; values embedded in the entry are packed little-endian in every file.
* `strip_data` with an empty offset list panics.

### DNG
* `CFARepeatPatternDim` is swapped for patterns that are not square (`C23_tall_pattern_swapped`); the reader moves the pattern again although the writer already moved it (`C23_read_back_moves_twice`, `C23_read_back_wrong`); the same for black levels (`C24_read_back_wrong`).
* Areas beyond 65535 are cut or panic (`C25_large_image_cut`, `C25_large_image_panics`); a crop that begins before the active area panics (`C25_crop_before_active_panics`).
* `RAWLER_DNG_ROWS_PER_STRIP=0` panics (`C17_zero_rows_panics`).
* Embedded original: the count returned by `decompress` is that of the last block (`C26_count_is_last_block`); a container of 4 GiB panics (`C26_container_overflow_panics`); blocks that fail to compress are dropped silently.

### Decryption
* `nef_decrypt` overflows for long buffers in checked builds (`C43_long_buffer_panics`); `BitArray::get_lsb` on an empty array panics (`C45_empty_get_lsb_panics`).

### CR3
- `integrate_cfa` (decoder.rs:735) computes the row offset of a tile from the tile *width*. With more than one row of tiles, tiles
  that are not square land in the wrong rows, or beyond the picture (panic): `C50_tile_rows_wrong`.
- Header inconsistencies (sizes, markers, end signs) are `assert!`s: a damaged CR3 panics instead of giving an error. Same for band
  offsets beyond the file.
- idwt.rs, start of a tile with a tile above it: `line_buf[l2][1]` and `[2]` are written where the other branches write at
  `l2_pos + 1`, `l2_pos + 2`; the same branch lacks the transform step of the level (read only).
- iquant.rs: `1 << (q / 6 + 26)` overflows for large quantization parameters (read only).
- A wavelet level of height 2 or of width 2 stops the decoder: `height - 3` and `width - 3` underflow (`C54_size_two`).
- A tile with another tile below never gives its last lines: `idwt_53_filter_transform` returns without lines and `getline` panics
  (`C54_tile_below`). The code for tiles with a tile above writes the fixed lines 1 and 2 instead of the ones of its loop (idwt.rs:285-297, read only).
  Files with several rows of tiles and wavelet levels can therefore not be decoded.
- A tile of one line and even width with a neighbour to the right writes behind its line (idwt.rs:350, hypothesis of `TileOK`).
- `decode_line_with_iquantization` scales the line in place; the scaled line is the reference for the next one (read only).
- `get_subband_row` subtracts `row_end_addon` where the columns subtract the start; with a tile above the last row of a band is looked up behind the table (`C55_tile_above`).
- A band with a quantization parameter of 36 or more (steps of 40 and more) cannot be decoded without a table: the shift overflows (`C55_large_param`).
- A band with `data_size` 0 gives empty lines instead of lines of zeros, and the transform panics (`C55_empty_band` and the example below it).
- Parameters 0 to 3 give step 0.

### Sony
* ARW1 pictures of odd height: the loop never comes to the odd rows, they stay black (`C56_arw1_odd_height`, `C56_arw1_odd_height_wrong`).
* ARW1 looks 13 bits ahead: a file that ends right after its code panics (`C56_arw1_no_padding`).
* ARW2: columns after the last multiple of 32 stay black (`C56_arw2_width`); a group whose maximum is below its minimum panics (`C56_arw2_extremes_swapped`).
* A tone curve that is steep right at its start underflows in `LookupTable::new` (`C56_curve_steep_start`).

### Pentax
* Odd widths: the last pair of the last row is written behind the image, which panics for every such file (`C57_odd_width`).
* Stored tables: the words are only used to sort the numbers of digits, and new canonical words are made from the lengths. A table that is prefix-free but not canonical is misread without an error (`C57_other_tables_wrong`).
* The code reader looks ahead: the theorems ask for 32 bits after the code. A file without them may panic.

### Nikon
* Lossless NEF files are not decoded without loss: without a curve the decoder dithers with the identity curve, which makes three quarters of all values other than black and white smaller by 1 (`C58_lossless_exact`, `C58_lossless_not_exact`).
* Odd widths panic for every file (`C58_odd_width`).
* A stored value beyond the end of the file's curve panics (`C58_beyond_curve`); dcraw uses the value itself.
* The four start values are taken column by column, where dcraw takes them row by row. Files with four equal start values cannot tell the difference.

### Lossless JPEG files
* Segments without meaning for the decoder are not passed over by their length: it looks for the next marker inside them. A comment or an APPn segment that contains the bytes FF D9 makes the file unreadable (`C59_comment_ends_the_file`); one that contains FF C4 is read as a table.

### Subsampled lossless JPEG
* The decoders of subsampled pictures do not take sums modulo 2^16 as the standard says: a negative sum is a failed debug assertion. The theorems ask for differences of 16 bits, which 15 bit data always have.

### CR2
* `Cr2StripeWidths` with a zero width is a failed debug assertion, although it comes from the file.

### sRAW
* `interpolate_yuv` fills in colours in the middle row of every three rows instead of every odd row: with a colour sample for four pixels row 3 (and 5, 9, 11, ..) keeps the colours of the block above and rows 4, 10, .. get averages instead of their own colours (`C62_four_rows_left_out`). The old sequential code in the comment below it was right. The same holds for imgop/yuv.rs.
* Without the tag Cr2StripeWidths an sRAW image is not converted to RGB (`C62_unconverted_without_tag`).
* Without ColorData in the makernotes the factors are NaN, which become 0, and the picture is black (`C62_black_without_levels`).
* The products in `convert_to_rgb` are `i32`: levels above 18724 and a bright pixel overflow (`C62_bright_panics`).
* When two lines are decoded at a time, the width of the last slice is ignored; the theorem is for slices of one width.
* `get_firmware` panics (`expect`) for a firmware string with an empty or large component.

### ARW tiles
* An image of LJPEG tiles whose width or height is not a multiple of 512 is never decoded: the last tile is written past the end of the strip (`C63_other_sizes`; the code panics). The tile size in the tags is only used for the number of tiles; the size of the data is always 512 by 512.

### Hasselblad and Leaf
* Hasselblad: the last column of an image of odd width is never written (0) (`C64_hasselblad`).
* Leaf: an image of odd width is never decoded, whatever the file contains: the last pair of a strip is written past its end (`C64_leaf_odd_width`; the code panics).
* Leaf: the number of strips is checked only against markers found by scanning; a file that ends without an end marker right after a marker makes `skip_to_marker` read past its end (panic).

### Olympus
* `decode_compressed` multiplies two differences of samples in i32: with samples of 16 bits the product can overflow (panic in a checked build, wrong prediction otherwise), `C65_bound_needed`. Cameras use 12 or 14 bits.
* The last column of an image of odd width is never written (0), `C65_orf`.

### Panasonic
* Version 6: the code takes 15 off in i32 and compares with the mask as a signed number, so values below 15 wrap to 65521 and up (14 bit) or 16369 and up (12 bit), near white where the picture is black, `C66_v6_black_wrong`.
* Version 7 with 12 bits: the code reads 10 fields of 14 bits from 128 bits, and always panics at the end of the packet, `C66_v7_12_fails`.
* Version 4 with split: a field that begins in the last byte of a block as stored goes on in the first byte of that block. The code takes the next 8 bits from the first byte of the next block, `C66_v4_split_wrong`.
* Version 5: samples of a last incomplete packet stay 0, `C66_v5`.

### Samsung
* First generation: for an odd number of rows the exchange of red and blue at the end indexes past the image and panics, `C67_gen1_odd_height`.
* Third generation with a depth of 16 bits: the mean of two pixels above is computed in u16; it overflows for large pixels, a panic in checked builds and a wrong pixel otherwise, `C67_gen3_depth16`.
* Third generation: `panic!` for lengths above depth + 1 and for prediction from above in the first two rows is reachable from file contents.

### CR3 container
* This reader is tried on every file no earlier check recognises. A nested box of size zero makes it loop for ever, taking memory for one more box each time: `C68_endless` with a file of 16 bytes.
* An `ftyp` box with a size below 16 underflows and panics, `C68_ftyp_panics` (16 bytes again). Other panics: unknown IAD1 type, `mvhd`/`mdhd` version above 1, a second CRAW or CTMD, CTMD contents of another length than the box, `offset + size` above 2^64, CMT and CNOP boxes shorter than their header, an XMP box shorter than its header.
* `moov`: a `uuid` box with another UUID than Canon's is neither read nor skipped; its payload is read as boxes and the tracks after it may be lost without an error, `C68_foreign_uuid`.
* `ftyp` with a 64 bit size: two words after the box are taken for brands, `C68_wide_ftyp`.
* A last `mdat` box with size zero (to the end of the file) is an error, `C68_open_mdat`.
* `StscBox::read_box` computes the first sample of a run as `first_sample + (next.first_chunk - first_sample) * samples_per_chunk` where `first_chunk` is meant: from the third run on frames are looked up in wrong chunks (`C69_three_runs_wrong`) or the subtraction underflows (`C69_three_runs_panic`), unless the runs before have one sample per chunk.

### Fuji compressed RAF
* `decompress_fuji` asserts, instead of returning an error, that the dimensions of the container are those of the data (`fuji_dimensions_panic`) and that nothing follows the last strip (`fuji_trailing_panics`). A header whose width exceeds the rounded width underflows in `is_valid`; a strip size past the end of the buffer is sliced without a check.

### Canon CRW
* `do_decode` works on whole blocks of 64 samples: when the number of samples is no multiple of 64 the last ones stay 0 (`C71_last_samples_zero`).

### Canon CIFF
* `CiffIFD::new` trusts sizes and offsets: a file whose last four bytes point outside it panics instead of giving an error (`C72_bad_trailer_panics`); a file cut short usually ends like that. The comment `Ignore unparsable IFDs` holds only for an unknown data location.
* The depth limit of 10 stops recursion but not growth: a directory that names itself `n` times makes `n^9` directories, 512 billion from a file of 220 bytes (`C72_small_file_many_directories`).
* Items below ten levels of subdirectories are dropped without an error (`C72_deep_lost`).
* The type 0x8000 in `element_shift` and `get_u32` cannot occur (the type is `p & 0x3800`); ASCII has type 0x0800, for which `get_u32` panics.

### Phase One IIQ
* The error recovery of IIQ S version 2 cannot work: it restores the pump to *before* the extra-digits field, does not read that field again, and starts from the last samples of the failed attempt instead of those before the group. Good samples before the bad one are changed, and all later groups of the row are read from the wrong bits (`C73_sv2_recovery_wrong`).
* In IIQ L a row whose first group keeps a length that was never set has length 0, and `1 << (i - 1)` panics (`C73_first_keep_panics`); a damaged file gives no error but a crash.
* IIQ S: samples above 255 are passed through without the shift to 16 bits that the others get (part of the statement of `C73_nonlinear`).

### Kodak DCR
* A sample that has no entry in the camera's curve aborts with an out-of-bounds panic (`C74_beyond_curve_panics`): the curve is as long as the file says, and nothing compares it with the samples.

### EXIF metadata
* The lens tags (`LensSpecification`, `LensMake`, `LensModel`) of the raw file's own EXIF directory are never read; only a lens that the decoder looks up is written. A DNG converted to DNG thus loses its lens (`C75_lens_of_file_lost`; dng.rs uses `RawMetadata::new`).
* `UserComment` is of type UNDEFINED in the standard, but is read only as a string: comments of conforming files are lost (`C75_user_comment_lost`).
* An empty `GPSProcessingMethod`, `GPSAreaInformation` or `TimeZoneOffset` in the raw file makes the conversion panic (`C75_empty_area_panics`), because of C18.
* A `TimeZoneOffset` of two values whose first is negative arrives with the second changed to -1 (`C75_time_zone_changed`), also because of C18.
* Many tags of the standard are not carried over at all, among them `FocalLengthIn35mmFilm`, `ImageUniqueID`, `Contrast`, `Saturation` and `Sharpness`; the EXIF version is always 2.20 (`C75_exif_directory`).

### JPEG files
* `Jfif::parse` repeats an `APP1` segment that cannot be read with `continue`, without reading a new marker. At the end of the file this never ends: a file consisting of the four bytes FF D8 FF E1 hangs `get_decoder`, hence every command that opens it (`C76_four_bytes_hang`), and so does any EXIF file cut off in or right behind an EXIF part with an unreadable directory (`C76_cut_exif_hangs`). `catch_unwind` does not help. These are the only files on which it hangs (`C76_ends_partial`).
* JFIF thumbnails of more than 85 pixels: the number of pixels is computed in `u8`, which panics in checked builds (`C76_thumbnail_panics`) and reads too little in release builds, after which thumbnail data are taken for markers.
* An `APP1` part with the XMP identifier and a length of 29 or 30 panics (`C76_xmp_length_panics`).
* A fill byte (FF) before a marker inside scan data, which JPEG allows, hides the marker: the file is refused or the next marker taken (`C76_fill_byte`). A file that ends behind a part without an end marker is accepted (`C76_no_end`).
* An `APP0` part that is not JFIF (JFXX extensions, for example) makes the whole file unreadable; fill bytes FF before the marker that ends a scan hide it (seen while modelling, not part of a theorem).

### MRW files
* The loop over the blocks stops twenty bytes before the end, with `<`: a WBG block without padding that is the last block (exactly twenty bytes) is not read, and the white balance is 0, 0, 0, 0 (`C77_last_wbg_lost`).
* Block positions are not compared with the length of the file: the file of the four bytes 00 4D 52 4D panics (`C77_short_panics`), as does one cut off in the blocks (`C77_cut_panics`). The comment in the code says at most twenty bytes are read from a position; PRD reads the 25th.
* A block length of FFFFFFF8 to FFFFFFFF: `len + 8` overflows `u32`, a panic in checked builds. In release builds FFFFFFF8 gives 0, and the loop stays at the block for ever (seen while modelling, not part of a theorem).
* `get_mly_wb` has `debug_assert_eq!` on the first bytes of the maker notes before it tests them: in debug builds maker notes of another kind panic instead of falling back to the default (seen while modelling, not part of a theorem).

### Panasonic raw format 8
* Places of strips come from the file (`CF2StripLineOffsets`) and are not compared with the size of the picture. Samples are written by `at_mut`, which has only a `debug_assert`: in release builds a strip outside of the picture writes outside of its memory (`C78_strip_outside_panics` is the checked build).
* The reader takes four bytes at a time and asks for sixteen bits for each word: data without some bytes behind the last word, or with a length that is not a multiple of four, panic although complete (`C78_no_padding_panics`).
* The last row of a strip with an odd number of rows stays black (`C78_odd_rows_lost`).
* Tone curve: the sum is cut to sixteen bits before it is compared with the limit, so that values above 65535 begin again at zero (`C78_curve_wraps`).
* Shifts other than zero, words of 0 or more than 16 bits, words not in the table and zero strips are panics, not errors (`C78_shift_panics`; the others seen while modelling). With fewer than 17 words the unused entries have zero bits and match everything: bits that are no word are taken for one digit more than the table has (seen while modelling).

### Finding the lens
* A key name or identifier that is not in the database is dropped, and the lens is looked for by what is left, for Nikon F the mount, for Panasonic mount and focal length. If one lens is left it is reported, although its identifier is another one (`C79_unknown_id_other_lens`: of the shipped MFT lenses only the Sigma 300-800mm covers 501 to 800 mm, so any unknown lens there is reported as that; `C79_unknown_name_other_lens`).
* Two Nikon identifiers occur twice in the shipped database (`00 54 44 44 0C 0C 00 00`: Nikkor 35mm f/1.4 AiS and Zeiss Distagon 1.4/35 ZF.2; `FE 54 5C 80 24 24 DF 0E`): the first one is reported (`C79_double_id_order`).
* 0/0 as focal length or aperture counts as equal to everything (`C79_zero_over_zero`), so that it does no harm.

### Choosing decoder and camera
* If two entries have the same maker, model and mode the later one wins without a word (`C80_shadowed`). In the shipped data this is so for the Panasonic DMC-FZ2000: it has an entry (`fz2000.toml`, white point 2095) and is an alias in `fz2500.toml` (white point 4095), whose settings are used.
* Of two cameras with the same file size only the later one is found (`C80_shared_size`). In the shipped data 19167840 belongs to the PowerShot SX260 HS and to the SX40 HS.
* A file with the CIFF signature that begins with the signature of Minolta, ARRI or QuickTake files is not read as CIFF file (`C80_two_signatures`). CIFF files begin with `II` or `MM`, but that is not tested.
* A mode can't take back a setting, parameter or colour matrix of its entry: colour matrices and parameters are merged (`Is`).
* A TIFF file of an unknown maker is refused even if its size is the one of a known raw file (`C80_unknown_maker`).

### makedng
* An existing output without `--override` is not protected but deleted: `makedng_internal` reports `AlreadyExists`, and `makedng` removes the output after any error (makedng.rs:44-52; `C81_existing_removed`).
* The same happens if a `--map` index is too large, before anything was opened (`C81_bad_map_removed`).
* With `--override` an output that is also an input is emptied before it is read, and then removed (`C81_input_emptied`).
* The buffered writer is dropped without `flush`: if the last bytes can't be written, success is reported (`C81_unflushed`).
* `--artist` is replaced by the artist of the EXIF input (`C81_artist_lost`), while `--make` and `--model` win.
* `--matrix3` is silently ignored unless the backward version is 1.6 or later; the default is 1.4 (`C81_matrix3_dropped`).

### Conversion on upload
* `A.CR2` and `A.NEF` are both stored as `A.dng`: the second upload replaces the first, both are reported to have worked, and without `--keep-orig` the first is lost (`C82_same_stem`). The same holds for a `A.dng` that was there before.
* Without `--keep-mtime` the buffered writer is dropped without `flush`: if its last bytes can't be written, the client is told that all went well, and the original is thrown away (`C82_unflushed`).
* A raw file that can't be converted is not stored, even with `--keep-orig`, and the unfinished DNG file stays and replaces an older one (`C82_not_converted`). The client gets an error.

### Demosaicing
* `interpolate_borders` jumps to column `w - 3` when it reaches column 3; in pictures 4 or 5 pixels wide that is to the left of column 4, and the loop never ends (`C83_narrow_hangs`, height at least 7). Widths or heights below 6 otherwise end in the underflow of `w - 6` or `h - 6`.
* `is_rgb` only looks at the letters: a DNG file with the pattern `RGBG` (greens in columns) is developed by PPG, whose passes then overwrite measured greens while other threads read them, with a result that depends on the schedule (`C83_green_columns`). `Superpixel3Channel` reaches `unreachable!()` for such a pattern.
* PPG can leave the range of the samples, also below zero (`C83_overshoot`).
* The X-Trans method averages the sample of a place with those around it (`C83_xtrans_measured_lost`).

### Colours
* `adapt_bradford` is called with source = the matrix's illuminant and destination = D65, and multiplies the camera matrix (XYZ to camera) by the adaption from the right. That sends the white of D65 away from the white of the matrix's illuminant instead of to it; with illuminant A the blue response to white is more than four times what it should be (`C85_adapted_backwards`). Adapting from D65 to the illuminant would be right. Only pictures without a D65 matrix are concerned.
* `clip_euclidean_norm_avg` takes the norm of the pixel before it is scaled down to 1, so a grey of 3 becomes a grey of 2 (`C85_not_clipped`); its comment says the pixel is clipped. The TIFF writer saturates later, other users of the intermediate see values above 1.
* `map_3ch_to_rgb` takes four rows of the matrix into the inverse but only the first three channels of the pixel; with a matrix of four rows (a linear DNG of a four-colour camera) grey isn't grey (`C85_four_rows_three_colours`).
* A matrix for another illuminant than D65 with other than nine entries is `unimplemented!()` (`C85_matrix_other`, `C85_four_colours_other`).

### Developing
* For pictures that aren't demosaiced (linear DNG, three samples per pixel) the default crop is still made relative to the active area when both steps are on, although only demosaicing cuts the active area out: the picture shows an area too far left and up by the active area's corner (`C84_linear_shifted`).
* `Rect::adapt` asserts that the crop starts in the active area and is no larger: files with other crops panic (`C84_crop_leaves_active`).
* `apply_scaling` is `todo!()` for black-is-zero pictures, so these can't be developed with the default steps (`C84_black_is_zero`).
* `correct_blacklevel` takes a black level per channel, but when the counts of black and white levels differ it leaves the samples as they are and development goes on with values up to 65535 (`correctedPixel` in `Spec/Develop`).

### Turned Fuji sensors
* `rotate_image` makes pictures of S by S - 1 pixels. Turning them back, the point for the lower left pixel can be less than half a pixel within the picture; it is then skipped and stays black (`C86_black_corner`). All other pixels are seen (`C86_turned_partial`).
* `rotate_image` indexes out of range for an odd number of rows of the active area (`fuji_rotation`) and underflows for an odd number of columns (`fuji_rotation_alt`): `C86_odd_panics`.
* `raf.rs` computes the crop area with `fuji_calc_dimension(image.width, ...)`; with `fuji_rotate_90cw` the picture that is turned has `image.height = image.width - 1` columns, so the crop can be two rows higher than the picture (`C86_extra_other_size`).

### Four colours
* `E` (emerald) and `C` (cyan) have the same number, so a block with both isn't one of four colours for this code; `IsFour` asks for different numbers.

### Developed TIFF files
* Width and length are cut to 16 bits (`as u16`): a picture of 65536 or more columns or lines is described with a wrong size (`C88_wide_truncated`).
* A picture without pixels panics: division by zero lines, or `par_chunks` of zero (`C88_empty_panics`).
* A picture of four channels is called RGB with four samples, without the tag `ExtraSamples` that TIFF 6.0 demands (`C88_fourth_channel_undeclared`).
* `Compression` and `Predictor` are written as `SLONG`, where TIFF 6.0 says `SHORT`.

### QuickTake 100
* The size in the header is not checked: more than 480 rows or 641 columns abort (`C89_large_aborts`), square pictures fail an assertion (`C89_not_wider_aborts`).
* A truncated file aborts in the bit reader instead of returning an error (`C89_short_aborts`).

### Kodak KDC
* An uncompressed DC120 file with missing data aborts, as there is no check of its length (`C90_dc120_short_aborts`).
* A DC120 JPEG of another size fails an assertion (`C90_dc120_jpeg_size_aborts`), one without colours reads beyond its end (`C90_dc120_jpeg_gray_aborts`).
* A Kodak white balance block stored as 16 or 32 bit numbers aborts (`C90_white_balance_aborts`).

### Phase One corrections
* `Spline` is called a natural cubic spline, but the loop that computes `mu` and `z` is missing, so that it draws straight lines (`C91_curve`).
* Two control points at the same place give NaN. In the quadrant linearization the last two points of the quadrant with the least last place always have the same place, so that saturated pixels (65535) become black (`C91_white_lost`).
* Calibration points that are not in order abort (`C91_curve_aborts`), as do a split outside the picture (`C91_split_outside`; in a release build the access is unchecked) and tables of levels of a wrong length (`C91_black_aborts`).
* A bad column at the left edge aborts (`C91_first_column_aborts`); one at the right edge is replaced from pixels of the left edge (`C91_last_column`).
* A flat field of an unknown kind (`C91_flat_empty`), with too few factors (`C91_flat_short_aborts`) or, for red and blue, one that begins in the margin of the sensor (`C91_flat_margin_aborts`) aborts. Pixels in the last part of the grid's area, after the last node, are not corrected (`Inside` in `C91_flat`).

### Small formats
* ARRI and Kodak DCS files may lack up to 16 bytes at the end: the decoder sees the padding of the buffer as data, and the missing samples are 0 (`C92_truncated_accepted`).
* A width of 0 aborts for ARRI, Mamiya and Epson (`C92_ari_zero_width_aborts`, `C92_zero_width_aborts`); a camera description without a size aborts for headerless files (`C92_naked_no_size_aborts`).
* A Kodak DCS table whose values fall aborts (`C92_dcs_falling_table_aborts`); values that are missing in the table are 0.
* An Epson white balance of 256 values that are not bytes aborts (`C92_erf_wb_errors`).

### Leaf, Hasselblad and Kodak DCR
* Leaf: an empty model text aborts, as `split_terminator` has no parts of an empty text although the code says there is always one (`C93_empty_model_aborts`).
* Leaf: a closing XMP tag before the opening one aborts (`C93_name_reversed_aborts`).
* Leaf: white balance numbers in the last 70 bytes of the metadata are not seen, although a block needs only 52 bytes (`C93_end_of_metadata_missed`).
* Hasselblad: a neutral colour that has not three numbers aborts (`C93_hasselblad_white_balance`). Kodak DCR and Leaf blocks that are not of bytes abort (`C93_kodak_white_balance`, `C93_leaf_no_white_balance`).

### Phase One tables
* The table of defects has 8 bytes for each defect, but the loop runs once for each 4 bytes. Data after the table are taken as defects (`C94_defects_overrun`), and a table at the end of the file is an error (`C94_defects_at_end`).
* A flat field has 16 bytes before its factors, but 8 are subtracted from the size, so that 8 bytes after the table are read (`flat` in `Spec/IiqTab`). They are not used, but at the end of the file they are an error.
* A file without calibration aborts (`C94_no_calibration_aborts`), as does one whose calibration is beyond 32 bits (`C94_notes_abort`, in a debug build) or has a table of a wrong size.

### Phase One pictures
* The formats 1 and 2 are accepted but abort with `todo!()` (`C95_old_formats_abort`).
* A black level above 65535 counts as 0 (`blackOf` in `Model/IiqRaw`), with a message in the log only.

### Foveon X3F
* A file of the four letters `FOVb`, or one whose last four bytes name a place behind its end, aborts when it is opened (`C96_letters_abort`, `C96_outside_aborts`); so does a directory with more entries than the file holds (`C96_entries_abort`).
* Camera information without 10 bytes of data behind its header aborts (`C96_cut_aborts`).
* `raw_metadata` and `format_dump` of X3F files abort with `todo!()`.

### Fujifilm RAF data block
* An entry of 16 or 32 bit numbers whose length is not a multiple of their size moves the cursor less than its length, so all later entries are read from the wrong bytes and are lost (`C97_odd_lost`).
* The second green level of the block is not used (`C97_second_green`); `normalize_wb` averages the first one with itself.

### Fujifilm DBP
* If the width is no multiple of eight, the columns left over are black (last part of `C98_dbp`).
* A picture counts as compressed when its bytes, with the 16 bytes of padding that `subview_padded` adds, are fewer than plain samples need. A cut plain picture is thus given to the decompressor (`C98_other`).
* In release builds a view whose end is above 2^64 is no error: `subview_padded(1, u64::MAX)` gives 15 bytes without padding (`C98_view_wraps`), and in a short file such a view can abort (`C98_view_wrap_aborts`).

### Fujifilm black levels
* If the number of levels differs from the number of cells of the pattern the program aborts (`C99_count_aborts`), for example four levels with an X-Trans pattern.
* Levels of 65536 or more lose their upper bits (`C99_high_lost`).

### Command line
* A source without images panics planning (`C32_no_image_panics`).
* A failed conversion can delete a file that another process put at the output (`C33_rename_race`); process-raw checks and creates in two steps (`C33_develop_race`).
* A failing lock, flush or time stamp, and a panic, leave the output behind (`C34_*_leaves_file`).
* With `--override` converting a DNG onto itself destroys the source (`C35_override_destroys_source`, `C35_planned_onto_source`).
* `extract` follows absolute names and `..` of the embedded name (`C36_absolute_escapes`, `C36_parent_escapes`).
* process-raw writes FOO.CR2 and FOO.NEF to the same file (`C37_same_output_planned`, `C37_result_lost`).

### FTP
* `STOR` follows a link out of the root (`C40_stor_link`), an `NLST` pattern with `..` searches outside (`C40_nlst_outside`), `RMD /` removes the root itself (`C40_rmd_root`), a root that is not canonical makes the server refuse everything (`C40_relative_root`).
* With anonymous access (the default of `Config::new`) any password is accepted for any configured user (`C41_anonymous`).
* A directory name with CR LF injects a reply (`C42_injection`, `C42_injection_reachable`).
* `CWD` to a file succeeds.
* A download or listing of something that does not exist gets an error and then `226 Transfer done` (`C53_two_finals`). A second `PASV`, `EPSV ALL` and `STOR ../x` get no final reply (`C53_no_final`). If reading a directory or file fails, the data connection stays open.

{"id": "C01", "title": "LZ10 round trip", "statement": "For every byte string shorter than 16 MiB, lz10.compress succeeds and lz10.decompress applied to its result returns exactly the original byte string.", "quantifier": "every byte string of length < 2^24", "why_tests_cant": "The claim ranges over every byte string; the match finder, the 8-item blocks and the tail padding interact differently for each input, so no finite sample settles it.", "anchors": ["ndspy/lz10.py:compress", "ndspy/lz10.py:decompress", "ndspy/_lzCommon.py:compress"]}
{"id": "C02", "title": "LZ10 compress rejects exactly the oversized inputs", "statement": "lz10.compress raises struct.error exactly when the input is 2^24 bytes or longer; it never fails on a shorter input and never emits a header with a truncated length.", "quantifier": "every byte string", "why_tests_cant": "The boundary is at 16 MiB inputs and 'never fails' is a universal claim.", "anchors": ["ndspy/lz10.py:compress"]}
{"id": "C03", "title": "LZ10 decompression is total and safe", "statement": "On every byte string lz10.decompress either returns exactly as many bytes as the header declares or raises one of TypeError (wrong magic), IndexError or struct.error; it always terminates.", "quantifier": "every byte string, including malformed and truncated ones", "why_tests_cant": "Malformed input space is unbounded; termination is a universal claim.", "anchors": ["ndspy/lz10.py:decompress"]}
{"id": "C04", "title": "The LZ match finder returns the longest available match", "statement": "At every position the compressor's search returns a match that really occurs entirely within the permitted window before the current position, and no longer match within the limits exists there.", "quantifier": "every byte string, every position, both search directions, every window size and length limit", "why_tests_cant": "A binary search over match lengths is only right because of a monotonicity argument that must hold for every input.", "anchors": ["ndspy/_lzCommon.py:compress.compressionSearch"]}
{"id": "C05", "title": "Code compression round trip when it shrinks the data", "statement": "Whenever codeCompression.compress returns an output strictly shorter than its input (and the compressed part is smaller than 16 MiB), codeCompression.decompress of that output is exactly the original data, with and without the ARM9 flag.", "quantifier": "every byte string and both values of isArm9", "why_tests_cant": "Universal over data; depends on the in-place format, trailing trim, footer and detection heuristics lining up for every length.", "anchors": ["ndspy/codeCompression.py:compress", "ndspy/codeCompression.py:_compress", "ndspy/codeCompression.py:decompress", "ndspy/codeCompression.py:_detectAppendedData", "ndspy/_lzCommon.py:compress"]}
{"id": "C06", "title": "Code compression is always invertible", "statement": "codeCompression.decompress(codeCompression.compress(data, isArm9)) == data for every data, and compress never raises.", "quantifier": "every byte string and both values of isArm9", "why_tests_cant": "Universal over data; the failing inputs sit at particular savings/alignment combinations a sample is unlikely to hit.", "anchors": ["ndspy/codeCompression.py:compress", "ndspy/codeCompression.py:decompress"]}
{"id": "C07", "title": "Code decompression leaves foreign data alone", "statement": "codeCompression.decompress returns its argument unchanged whenever no footer of an LZ-compressed code file is present in the last 8 + 0x20 bytes, and never raises for such data.", "quantifier": "every byte string without a plausible footer", "why_tests_cant": "Universal over data; the footer probe reads at computed offsets that differ for short inputs.", "anchors": ["ndspy/codeCompression.py:decompress", "ndspy/codeCompression.py:_detectAppendedData"]}
{"id": "C08", "title": "Filename table round trip", "statement": "If fnt.save succeeds on a folder tree all of whose file names are non-empty, then fnt.load of the result reproduces the tree exactly: the same folders in the same order, the same file names and the same first file IDs.", "quantifier": "every folder tree of any width and any depth that the recursion limit (a parameter) allows", "why_tests_cant": "Recursive structure of unbounded depth; table offsets are computed across the whole tree.", "anchors": ["ndspy/fnt.py:save", "ndspy/fnt.py:load"]}
{"id": "C09", "title": "Filename table save rejects what the format cannot express", "statement": "fnt.save raises (and writes nothing) when any file or folder name is longer than 127 characters or not Latin-1, when a first ID does not fit 16 bits, or when there are more than 4096 folders.", "quantifier": "every folder tree", "why_tests_cant": "Universal over trees; the bad name may be anywhere in the tree.", "anchors": ["ndspy/fnt.py:save"]}
{"id": "C10", "title": "File ID to path and back", "statement": "In a folder tree whose sibling names are unique, non-empty and free of '/', Folder.idOf(Folder.filenameOf(i)) == i for every ID i that filenameOf resolves.", "quantifier": "every such folder tree, every ID", "why_tests_cant": "Recursive search in unbounded trees; relies on the first-match rules of two differently written traversals agreeing.", "anchors": ["ndspy/fnt.py:Folder.idOf", "ndspy/fnt.py:Folder.filenameOf"]}
{"id": "C11", "title": "Path lookup agrees with ID lookup", "statement": "If Folder.idOf(path) returns an ID, the folder reached by following the directory components contains a file with the final component as name, and the ID is that folder's first ID plus the index of the first such file; Folder[...] and 'in' agree with it, and a trailing slash does not matter.", "quantifier": "every folder tree and every path", "why_tests_cant": "Universal over trees and paths.", "anchors": ["ndspy/fnt.py:Folder.idOf", "ndspy/fnt.py:Folder.subfolder", "ndspy/fnt.py:Folder.__getitem__", "ndspy/fnt.py:Folder.__contains__"]}
{"id": "C12", "title": "NARC round trip", "statement": "If NARC.save succeeds and no file name is empty, loading the result gives the same list of file contents, the same filename tree and the same beginning byte order.", "quantifier": "every list of files of any sizes, every filename tree whose depth the recursion limit allows, both beginnings", "why_tests_cant": "Unbounded numbers and sizes of files; alignment padding between them depends on every preceding length.", "anchors": ["ndspy/narc.py:NARC.save", "ndspy/narc.py:NARC.__init__"]}
{"id": "C13", "title": "NARC by-name access obeys get/put laws", "statement": "After setFileByName(name, data) succeeds, getFileByName(name) returns data and getFileByName of any name resolving to a different file ID is unchanged, and no other file is modified; unknown names raise ValueError and change nothing.", "quantifier": "every archive, names and data", "why_tests_cant": "Universal over archives and names.", "anchors": ["ndspy/narc.py:NARC.getFileByName", "ndspy/narc.py:NARC.setFileByName", "ndspy/rom.py:NintendoDSRom.getFileByName", "ndspy/rom.py:NintendoDSRom.setFileByName"]}
{"id": "C14", "title": "NARC output layout", "statement": "Every successfully saved NARC has its own length in the header, three correctly sized blocks that tile the file, and file allocation entries that are in range, pairwise disjoint, 4-byte aligned and delimit exactly the file contents.", "quantifier": "every NARC that saves", "why_tests_cant": "Universal; layout depends on all sizes at once.", "anchors": ["ndspy/narc.py:NARC.save"]}
{"id": "C15", "title": "Overlay table round trip", "statement": "If saveOverlayTable succeeds on a dict of overlays whose compressed sizes fit 24 bits and whose keys are their overlay IDs, loading the result with the same file lookup gives back every table field of every overlay under the same ID, and saving that gives the same bytes.", "quantifier": "every dict of overlays", "why_tests_cant": "Universal over tables; packing of size and flags into one word.", "anchors": ["ndspy/code.py:saveOverlayTable", "ndspy/code.py:loadOverlayTable"]}
{"id": "C16", "title": "Overlay flag properties", "statement": "Setting Overlay.compressed or Overlay.verifyHash makes reading it return the new value, leaves the other one unchanged and leaves all other flag bits unchanged.", "quantifier": "every flags value and both settings", "why_tests_cant": "Universal over flag words (unbounded Python ints).", "anchors": ["ndspy/code.py:Overlay.compressed", "ndspy/code.py:Overlay.verifyHash"]}
{"id": "C17", "title": "Main code file round trip", "statement": "If MainCodeFile.save succeeds (uncompressed) on a file whose first section is the implicit one and holds the code settings, whose section lengths are multiples of 4, and whose bytes do not look compressed, loading the saved bytes at the same address gives back the same sections: RAM addresses, contents and BSS sizes. Only the order of sections without contents (they come last) and the four settings words that describe the layout differ, and saving the loaded file reproduces the bytes. The settings are found through the pointer, or through the magic number behind them.", "quantifier": "every list of sections and code-settings location", "why_tests_cant": "Universal over section lists; the section table is written inside the first section's own data.", "anchors": ["ndspy/code.py:MainCodeFile.save", "ndspy/code.py:MainCodeFile.__init__"]}
{"id": "C18", "title": "Main code files without code settings can be saved", "statement": "A MainCodeFile for which no code-settings block can be found (for example one built from sections) can be saved.", "quantifier": "every such file", "why_tests_cant": "Universal over files lacking the block.", "anchors": ["ndspy/code.py:MainCodeFile.save"]}
{"id": "C19", "title": "CRC-16 detects every corruption of one byte or of two adjacent bytes", "statement": "Two byte strings of equal length that differ only within two adjacent bytes (in particular in a single byte) always have different CRC-16 values; the CRC-16 always fits 16 bits and is affine over exclusive or.", "quantifier": "every pair of byte strings of any length", "why_tests_cant": "Universal over lengths and positions.", "anchors": ["ndspy/_common.py:crc16"]}
{"id": "C20", "title": "Colour conversions are mutually inverse where lossless", "statement": "Packing then unpacking any 15-bit colour plus alpha, and expanding then contracting any 5-bit-per-channel colour, give back the original; contracting picks the closest 5-bit value; the lookup tables agree with the direct conversions; conversions between formats commute.", "quantifier": "every colour value in every format", "why_tests_cant": "Five formats and twenty-five conversion paths over the full value space; spot checks miss single wrong entries.", "anchors": ["ndspy/color.py:convert", "ndspy/color.py:pack", "ndspy/color.py:unpack", "ndspy/color.py:expand", "ndspy/color.py:contract", "ndspy/color.py:prepareLUTs"]}
{"id": "C21", "title": "Palette round trip", "statement": "color.loadPalette(color.savePalette(p)) == p for every palette whose channels are 5-bit, and savePalette(loadPalette(d)) == d for every even-length byte string.", "quantifier": "every palette of any length, every even-length byte string", "why_tests_cant": "Unbounded lengths.", "anchors": ["ndspy/color.py:loadPalette", "ndspy/color.py:savePalette"]}
{"id": "C22", "title": "Position/alignment packing round trip", "statement": "Packing an in-range coordinate and alignment into a position word and unpacking it returns the same coordinate and alignment; the top-left corner computed from a touch rectangle contains its anchor point.", "quantifier": "every coordinate below 2^12 and every alignment", "why_tests_cant": "Universal over words.", "anchors": ["ndspy/_common.py:packAlignmentIntoPos", "ndspy/_common.py:unpackAlignmentFromPos", "ndspy/_common.py:getTopLeftOfAlignedRect"]}
{"id": "C23", "title": "BNBL round trip", "statement": "If a button layout whose coordinates are in 0..4095 and whose alignments are one horizontal and one vertical choice saves successfully, loading the bytes gives back the same list of touch areas with the same order, positions, sizes and alignments; and every layout that loads can be saved and loads back the same.", "quantifier": "every list of touch areas, every byte string", "why_tests_cant": "Unbounded list; count and record layout must agree.", "anchors": ["ndspy/bnbl.py:BNBL.save", "ndspy/bnbl.py:BNBL.__init__"]}
{"id": "C24", "title": "BNCL round trip", "statement": "If a layout of image positions whose coordinates are in 0..4095 and whose alignments are one horizontal and one vertical choice saves successfully, loading the bytes gives back the same list of image positions; and every layout that loads can be saved and loads back the same.", "quantifier": "every list of image positions, every byte string", "why_tests_cant": "Unbounded list.", "anchors": ["ndspy/bncl.py:BNCL.save", "ndspy/bncl.py:BNCL.__init__"]}
{"id": "C25", "title": "Variable-length integer round trip", "statement": "Writing a non-negative integer as a variable-length quantity and reading it back returns the same integer and consumes exactly the bytes written, for every integer below 2^35; longer ones are refused when reading; the declared length always equals the bytes written.", "quantifier": "every natural number, at any offset in any surrounding data", "why_tests_cant": "Infinite domain.", "anchors": ["ndspy/soundSequence.py:_readVariableLengthInt", "ndspy/soundSequence.py:_writeVariableLengthInt", "ndspy/soundSequence.py:_lengthOfVariableLengthInt"]}
{"id": "C26", "title": "Sequence events occupy the length they declare", "statement": "For every sequence event with in-range fields, the number of bytes it saves to equals its declared data length.", "quantifier": "every event kind and all field values", "why_tests_cant": "Twenty-plus event kinds with unbounded fields; layout of all later events depends on it.", "anchors": ["ndspy/soundSequence.py:*SequenceEvent.save", "ndspy/soundSequence.py:*SequenceEvent.dataLength"]}
{"id": "C27", "title": "Sequence event round trip", "statement": "For every sequence event without jumps, parsing its saved bytes gives an equal event, wherever it is placed in the data.", "quantifier": "every event kind and all in-range field values, any surrounding bytes", "why_tests_cant": "Universal over fields and contexts.", "anchors": ["ndspy/soundSequence.py:*SequenceEvent.fromData", "ndspy/soundSequence.py:*SequenceEvent.save"]}
{"id": "C28", "title": "Jump targets are resolved to the target event's position", "statement": "In the bytes produced by saveSequenceEvents every jump, call and begin-track event stores the byte offset at which its destination event was written, and events appear in order at consecutive offsets.", "quantifier": "every list of events with any jump structure", "why_tests_cant": "Universal over event lists.", "anchors": ["ndspy/soundSequence.py:saveSequenceEvents"]}
{"id": "C29", "title": "SSEQ container round trip", "statement": "Saving a sequence that was never parsed and loading it again keeps its event bytes; the header sizes describe the file.", "quantifier": "every event data byte string", "why_tests_cant": "Universal over contents.", "anchors": ["ndspy/soundSequence.py:SSEQ.save", "ndspy/soundSequence.py:SSEQ.__init__"]}
{"id": "C30", "title": "SWAV round trip", "statement": "If a wave saves successfully, loading the bytes gives back the same wave type, loop flag, sample rate, time, loop offset, total length and sample data.", "quantifier": "every wave whose data length matches the declared lengths", "why_tests_cant": "Unbounded data.", "anchors": ["ndspy/soundWave.py:SWAV.save", "ndspy/soundWave.py:SWAV.__init__"]}
{"id": "C31", "title": "SWAR round trip", "statement": "If a wave archive saves successfully, loading the bytes gives back the same waves in the same order.", "quantifier": "every list of waves", "why_tests_cant": "Unbounded list.", "anchors": ["ndspy/soundWaveArchive.py:SWAR.save", "ndspy/soundWaveArchive.py:SWAR.__init__"]}
{"id": "C32", "title": "STRM round trip", "statement": "If a stream saves successfully and is well formed, loading the bytes gives back the same channels, block by block, and the same metadata.", "quantifier": "every stream with any number of channels and blocks", "why_tests_cant": "Unbounded channels and blocks, interleaved with alignment.", "anchors": ["ndspy/soundStream.py:STRM.save", "ndspy/soundStream.py:STRM.__init__"]}
{"id": "C33", "title": "Sound group entry round trip", "statement": "Every group entry that packs successfully unpacks to the same type, options and ID; a group's list of entries is preserved.", "quantifier": "every entry and list", "why_tests_cant": "Unbounded list.", "anchors": ["ndspy/soundGroup.py:GroupEntry.save", "ndspy/soundGroup.py:GroupEntry.__init__"]}
{"id": "C34", "title": "Sound bank instrument round trip", "statement": "Every single-note, range and regional instrument that saves successfully loads back equal, at any position in a bank file.", "quantifier": "every instrument with any number of note definitions", "why_tests_cant": "Unbounded ranges of pitches and regions.", "anchors": ["ndspy/soundBank.py:SingleNoteInstrument", "ndspy/soundBank.py:RangeInstrument", "ndspy/soundBank.py:RegionalInstrument", "ndspy/soundBank.py:NoteDefinition"]}
{"id": "C35", "title": "SBNK round trip", "statement": "If a bank saves successfully, loading the bytes gives back the same instrument list with the same empty slots.", "quantifier": "every list of optional instruments", "why_tests_cant": "Unbounded list with data sharing, reordering by type and 16-bit offsets.", "anchors": ["ndspy/soundBank.py:SBNK.save", "ndspy/soundBank.py:SBNK.__init__"]}
{"id": "C36", "title": "SDAT file sharing", "statement": "While saving a sound archive, two items get the same file ID exactly when their file data and merge ID agree; every item's file ID refers to its own data, and earlier IDs never change.", "quantifier": "every sequence of items", "why_tests_cant": "Unbounded history of additions.", "anchors": ["ndspy/soundArchive.py:SDAT.save.addFileAndGetID"]}
{"id": "C37", "title": "ROM header checksums", "statement": "In every ROM saved by NintendoDSRom.save the header CRC-16 at 0x15E covers the final bytes 0x000-0x15D and the logo CRC at 0x15C covers the logo bytes.", "quantifier": "every ROM that saves", "why_tests_cant": "Must hold after all later patches of the image for every content.", "anchors": ["ndspy/rom.py:NintendoDSRom.save", "ndspy/_common.py:crc16"]}
{"id": "C38", "title": "ROM files are stored intact", "statement": "In every ROM saved by NintendoDSRom.save, the file allocation table entry of each file ID delimits exactly that file's bytes, distinct files occupy disjoint regions, each file is stored exactly once and starts at a multiple of 0x200.", "quantifier": "every ROM with any files, overlay tables and sorted-ID order", "why_tests_cant": "Unbounded files; placement order depends on overlay tables and sortedFileIds.", "anchors": ["ndspy/rom.py:NintendoDSRom.save"]}
{"id": "C39", "title": "ROM round trip", "statement": "Loading a saved ROM gives back the same ARM9, ARM7, overlay tables, filename tree, files, icon banner, debug ROM and header fields.", "quantifier": "every ROM that saves and whose fields are representable", "why_tests_cant": "Universal over contents.", "anchors": ["ndspy/rom.py:NintendoDSRom.save", "ndspy/rom.py:NintendoDSRom.__init__"]}
{"id": "C40", "title": "BMG round trip", "statement": "If a BMG saves successfully and its byte order is recoverable from its length, loading gives back the same messages (with adjacent text merged), instructions, labels and scripts.", "quantifier": "every BMG with any messages, encodings, instructions, labels and scripts", "why_tests_cant": "Unbounded text with escapes; several tables with cross offsets.", "anchors": ["ndspy/bmg.py:BMG.save", "ndspy/bmg.py:BMG.__init__"]}
{"id": "C41", "title": "BMG byte order detection", "statement": "Every saved BMG is loaded with the byte order it was saved with.", "quantifier": "every BMG", "why_tests_cant": "The heuristic compares the length word in both byte orders; failing lengths are rare (first at 64 KiB).", "anchors": ["ndspy/bmg.py:BMG.__init__"]}
{"id": "C42", "title": "BMG loading terminates", "statement": "Loading any byte string as a BMG terminates.", "quantifier": "every byte string", "why_tests_cant": "Termination on all malformed inputs.", "anchors": ["ndspy/bmg.py:BMG.__init__"]}
{"id": "C43", "title": "Image tile round trip and flips", "statement": "Saving and loading image tiles (4- and 8-bit) preserves all pixels; tilemap entries preserve tile number, flips and palette; bulk load/save of tiles are inverse.", "quantifier": "every tile and every tile list of any length", "why_tests_cant": "Unbounded lists and all values.", "anchors": ["ndspy/graphics2D.py:ImageTile", "ndspy/graphics2D.py:TilemapTile", "ndspy/graphics2D.py:loadImageTiles", "ndspy/graphics2D.py:saveImageTiles", "ndspy/graphics2D.py:loadTilemapTiles", "ndspy/graphics2D.py:saveTilemapTiles"]}
{"id": "C44", "title": "Tile grid get/put laws", "statement": "After putTile(tiles, width, x, y, t) inside the grid, tileAt(x, y) returns t and every other coordinate returns what it did before.", "quantifier": "every tile list, width and coordinates", "why_tests_cant": "Universal over grid shapes.", "anchors": ["ndspy/graphics2D.py:tileAt", "ndspy/graphics2D.py:putTile"]}
{"id": "C45", "title": "Texture parameter word round trip", "statement": "The texture parameter word loses nothing: width, height, format, repeat/flip flags and transparency read back as set, and setting one leaves the others alone.", "quantifier": "every parameter combination", "why_tests_cant": "Universal over all 65536 words and all attribute combinations.", "anchors": ["ndspy/texture.py:Texture"]}
{"id": "C46", "title": "Info block round trip", "statement": "An info block that saves reads back, from wherever it lies in a file, as the same names and records in the same order exactly when every name has at most 16 characters and does not end in NUL.", "quantifier": "every list of named records", "why_tests_cant": "Unbounded lists; offsets computed from counts.", "anchors": ["ndspy/_common.py:saveInfoBlock", "ndspy/_common.py:loadInfoBlock"]}
{"id": "C47", "title": "NSBTX round trip", "statement": "If an NSBTX saves successfully and is well formed, loading gives the same textures and palettes.", "quantifier": "every list of textures and palettes", "why_tests_cant": "Unbounded lists; three data areas with shared offsets.", "anchors": ["ndspy/texture.py:NSBTX", "ndspy/texture.py:_readTEX0", "ndspy/texture.py:_saveTEX0"]}
{"id": "C48", "title": "Named-list helpers obey get/put laws", "statement": "findInNamedList returns the value of the first entry with the name; setInNamedList replaces exactly that entry; a missing name raises KeyError and changes nothing.", "quantifier": "every named list and name", "why_tests_cant": "Unbounded lists with duplicates.", "anchors": ["ndspy/__init__.py:indexInNamedList", "ndspy/__init__.py:findInNamedList", "ndspy/__init__.py:setInNamedList"]}
{"id": "C49", "title": "Short byte representation is a valid literal", "statement": "For every byte string no longer than the limit, evaluating the text produced by the short byte representation as a Python bytes literal gives back the same bytes.", "quantifier": "every byte string", "why_tests_cant": "Universal over adjacent byte pairs (octal shortening depends on the next byte).", "anchors": ["ndspy/_common.py:shortBytesRepr"]}
{"id": "C50", "title": "Simultaneous event edits use original indices", "statement": "The list produced by the simultaneous events modifier equals the one obtained by applying all recorded insertions, replacements and deletions with respect to the original positions, whatever order they were requested in.", "quantifier": "every event list and every series of edits", "why_tests_cant": "Unbounded histories of edits.", "anchors": ["ndspy/extras/music.py:SimultaneousEventsModifier"]}
{"id": "C51", "title": "Moving a music event in time", "statement": "music.moveInTime by a non-negative amount returns an index, an elapsed time of at most the amount, and the mono/poly mode, such that the events between the start and that index last exactly the elapsed time and leave exactly that mode; the elapsed time is the largest reachable one, and equals the amount when cutting and appending are allowed and the event reached is not a sounding note; without cutting and appending the list is unchanged; cutting never changes the total duration and appending adds exactly the missing time.", "quantifier": "every event list of different objects, start index, amount, starting mode and both options (the largest time and the exact time: lists without negative durations)", "why_tests_cant": "Unbounded lists with rests to split and modes that change the meaning of later events.", "anchors": ["ndspy/extras/music.py:moveInTime", "ndspy/extras/music.py:durationOf"]}
{"id": "C52", "title": "SSAR container round trip", "statement": "Saving a sequence archive that was never parsed and loading it gives the same sequence headers and event bytes.", "quantifier": "every list of sequences", "why_tests_cant": "Unbounded list.", "anchors": ["ndspy/soundSequenceArchive.py:SSAR.save", "ndspy/soundSequenceArchive.py:SSAR.__init__"]}
{"id": "C53", "title": "Loading any filename table terminates and re-saves stably", "statement": "fnt.load on any byte string returns a tree or raises struct.error or RecursionError; any loaded tree with at most 4096 folders can be saved, and loading the saved table gives the same tree.", "quantifier": "every byte string", "why_tests_cant": "Malformed tables can contain cycles and overlapping folders; the input space is unbounded.", "anchors": ["ndspy/fnt.py:load", "ndspy/fnt.py:save"]}
{"id": "C54", "title": "Saving an overlay keeps its table fields true", "statement": "Overlay.save sets ramSize to the length of the data, compressedSize to the length of the returned file and the compressed flag to the request, and changes nothing else; an Overlay built from the returned file and the updated fields equals the saved one, always when not compressing and, when compressing, whenever the file became shorter.", "quantifier": "every overlay and both compression settings", "why_tests_cant": "Universal over data and flag words; relates three pieces of state and the compression format.", "anchors": ["ndspy/code.py:Overlay.save", "ndspy/code.py:Overlay.__init__"]}
{"id": "C55", "title": "Compressed main code file round trip", "statement": "If MainCodeFile.save(compress=True) makes the file shorter and the code settings lie in the first 16 KiB, loading it gives back the same sections with settings words that describe the new layout, including the end of the compressed file, and saving compressed again reproduces the bytes.", "quantifier": "every such file", "why_tests_cant": "The settings are patched into the already compressed file; universal over contents.", "anchors": ["ndspy/code.py:MainCodeFile.save", "ndspy/code.py:MainCodeFile.__init__"]}
{"id": "C56", "title": "Reading sequence data always ends", "statement": "readSequenceEvents on any data and any non-negative notable offsets returns or raises EOFError, ValueError, KeyError, RecursionError or AssertionError; it never runs forever, however the jumps and calls in the data loop.", "quantifier": "every byte string and list of offsets", "why_tests_cant": "Termination on arbitrary jump graphs.", "anchors": ["ndspy/soundSequence.py:readSequenceEvents"]}
{"id": "C57", "title": "Sequence data survives reading and saving", "statement": "The events read from sequence data lie one after the other from offset 0 without gaps and cover all of it, with bytes that belong to no event kept as raw data; saving them gives back exactly the same data and notable offsets, provided variable-length integers use their shortest encoding, no event reaches past the end, and no jump leads into the middle of another event.", "quantifier": "every byte string and list of notable offsets that can be read", "why_tests_cant": "Universal over data and its jump structure.", "anchors": ["ndspy/soundSequence.py:readSequenceEvents", "ndspy/soundSequence.py:saveSequenceEvents"]}
{"id": "C58", "title": "Saved sequence events are read back", "statement": "Reading what saveSequenceEvents produced gives the same events in the same order with references to the corresponding events and the same notable events, except that runs of unreachable events come back as raw data; events without calls, returns and ifs that are all reachable are read back completely.", "quantifier": "every list of distinct in-range events other than from-variable events", "why_tests_cant": "Universal over event lists and jump structures; the reader follows control flow.", "anchors": ["ndspy/soundSequence.py:readSequenceEvents", "ndspy/soundSequence.py:saveSequenceEvents"]}
{"id": "C59", "title": "Data appended to compressed code is kept", "statement": "If up to 28 bytes, a multiple of four, that do not look like a footer are appended to a compressed file, codeCompression.decompress returns the decompressed data followed by the appended bytes.", "quantifier": "every compressed file and all appended data", "why_tests_cant": "Universal over files; the detection of the footer depends on the appended bytes.", "anchors": ["ndspy/codeCompression.py:decompress", "ndspy/codeCompression.py:_detectAppendedData"]}
{"id": "C60", "title": "Parsing a sequence archive does not change what it saves", "statement": "Calling SSAR.parse() and then save() gives the same file, unk02 and names as saving without parsing.", "quantifier": "every archive whose event data meets the conditions of the sequence data property", "why_tests_cant": "Universal over archives and event data.", "anchors": ["ndspy/soundSequenceArchive.py:SSAR.parse", "ndspy/soundSequenceArchive.py:SSAR.save"]}
{"id": "C61", "title": "A parsed sequence archive survives saving", "statement": "Saving a parsed SSAR and loading it gives the same sequences with the same names and attributes, the offset of each first event being the offset at which that event was written, with consistent sizes and positions in the file header; parsing it again gives back the events and first events when all of them are reachable without calls, returns and ifs.", "quantifier": "every parsed archive of distinct in-range events that can be saved", "why_tests_cant": "Universal over event lists and sequences.", "anchors": ["ndspy/soundSequenceArchive.py:SSAR.save", "ndspy/soundSequenceArchive.py:SSAR.__init__", "ndspy/soundSequenceArchive.py:SSAR.parse"]}
{"id": "C62", "title": "Loading any instrument bank ends", "statement": "SBNK(data) on any byte string returns a bank or raises struct.error, ValueError, IndexError or AssertionError; the search for instruments that the table does not mention never runs forever, whatever guessInstrumentType picks.", "quantifier": "every byte string and every outcome of guessInstrumentType's arbitrary choice", "why_tests_cant": "Termination on arbitrary input.", "anchors": ["ndspy/soundBank.py:SBNK._initFromData", "ndspy/soundBank.py:guessInstrumentType"]}
{"id": "C63", "title": "Instrument banks re-save stably", "statement": "Saving a bank without inaccessible instruments, loading the file and saving again gives the same file.", "quantifier": "every bank whose instruments can be represented in the format", "why_tests_cant": "Order and sharing of the data are reconstructed from offsets; universal over instrument lists, order keys and merge IDs.", "anchors": ["ndspy/soundBank.py:SBNK.save", "ndspy/soundBank.py:SBNK._initFromData"]}
{"id": "C64", "title": "Instrument bank table and data sharing", "statement": "In a saved bank, the table entry of each slot holds the type of its instrument and the offset at which the data of exactly that instrument lies, behind the table; empty slots are zero; two instruments share an offset exactly if their data and dataMergeOptimizationIDs agree.", "quantifier": "every bank that can be saved", "why_tests_cant": "Universal over instrument lists.", "anchors": ["ndspy/soundBank.py:SBNK.save"]}
{"id": "C65", "title": "Re-saving a loaded BMG changes nothing", "statement": "A BMG loaded from any file, saved and loaded again is the same BMG, provided its byte order is recoverable from the new length.", "quantifier": "every file that can be loaded and saved", "why_tests_cant": "Universal over files, including ones with overlapping messages and unusual sections.", "anchors": ["ndspy/bmg.py:BMG.__init__", "ndspy/bmg.py:BMG.save"]}
{"id": "C66", "title": "BMG file layout", "statement": "In a saved BMG the header states the file length rounded up to a multiple of 32; INF1 states its own length, the number of messages, the length of its entries (four bytes more than the info values; four if there are no messages) and the ID; the INF1 entry of each message holds its info value and the place of its text in DAT1; null messages have place 0, and the encoded text of every other message is at its place, in order and without overlap.", "quantifier": "every BMG that can be saved", "why_tests_cant": "Universal over messages and encodings.", "anchors": ["ndspy/bmg.py:BMG.save", "ndspy/bmg.py:Message.save"]}
{"id": "C67", "title": "Rendering tiles puts every pixel in its place", "statement": "Rendering a tile gives transparent pixels for value 0 and the opaque palette colour otherwise; a tilemap entry shows its tile with its palette, mirrored as its flip flags say; renderImageTiles and renderTilemapTiles with any width give an image in which pixel (X, Y) is pixel (X mod 8, Y mod 8) of the tile in column X // 8 and row Y // 8.", "quantifier": "every list of tiles, palette and width", "why_tests_cant": "Universal over tile lists, widths and coordinates.", "anchors": ["ndspy/graphics2D.py:ImageTile.render", "ndspy/graphics2D.py:TilemapTile.renderSingle", "ndspy/graphics2D.py:renderImageTiles", "ndspy/graphics2D.py:renderTilemapTiles"]}
{"id": "C68", "title": "Minifying a bank keeps every note's sound", "statement": "After music.minifyByEvents, every note that had a sound (the definition its instrument uses for its pitch, with the wave it refers to) has the same sound, the events other than instrument switches are unchanged, exactly the instruments switched to are left, in order, and the archives hold exactly the waves needed (by the only definition of an instrument switched to, or by a definition that a note uses), once each and in order; leaving out the archives works too.", "quantifier": "every event list, bank and list of wave archives", "why_tests_cant": "Three renumberings (instruments, waves, archives) have to agree for all events and banks; a note that goes silent raises no error.", "anchors": ["ndspy/extras/music.py:minifyByEvents"]}
{"id": "C69", "title": "Looping a track repeats exactly the asked section", "statement": "Track.loop(start, end) with 0 <= start < end on a track without jumps raises RuntimeError if a note sounds across either time; otherwise the track has a jump placed at exactly the end time whose destination is at exactly the start time, no note is changed and every note up to the end keeps its time; a track that has a jump already cannot be looped.", "quantifier": "every event list whose lengths are not negative and all times", "why_tests_cant": "Rests are split and indices shift between the two searches; universal over lists and times.", "anchors": ["ndspy/extras/music.py:SSEQMusic.Track.loop", "ndspy/extras/music.py:moveInTime"]}
{"id": "C70", "title": "moveInTime returns the first event at its time", "statement": "The index returned by music.moveInTime is that of the first event at the time reached, as documented.", "quantifier": "every event list, start index, amount, starting mode and both options", "why_tests_cant": "Depends on events without length around the target; universal over lists.", "anchors": ["ndspy/extras/music.py:moveInTime"]}
{"id": "C71", "title": "A song survives saving", "statement": "Saving an SSEQMusic and opening the sequence again gives the same tracks with the same events under the same numbers.", "quantifier": "every song whose event objects are distinct", "why_tests_cant": "Universal over sets of tracks and their events; tracks are found again by walking the events.", "anchors": ["ndspy/extras/music.py:SSEQMusic.__init__", "ndspy/extras/music.py:SSEQMusic.save"]}
{"id": "C72", "title": "Changing note velocities", "statement": "addToNoteVelocities and multiplyNoteVelocitiesBy change exactly the velocities of the notes, by the given amount; with clamping the result is brought into 0 to 127, without it ValueError is raised exactly if some result is outside.", "quantifier": "every event list and every integer amount", "why_tests_cant": "Universal over events and amounts, including the boundary values.", "anchors": ["ndspy/extras/music.py:SSEQMusic.Track.addToNoteVelocities", "ndspy/extras/music.py:SSEQMusic.Track.multiplyNoteVelocitiesBy"]}
{"id": "C73", "title": "Initial values of a track can be read and set", "statement": "The initial value of a control is the one set by the first event for it before any note or rest; after setting it, reading it gives the new value, no other control's value changes, and the track differs in at most one event; setting None removes that one event.", "quantifier": "every event list, control and value", "why_tests_cant": "Universal over events and pairs of controls.", "anchors": ["ndspy/extras/music.py:SSEQMusic.Track"]}
{"id": "C74", "title": "Collapsing track numbers", "statement": "collapseTrackIDs renumbers the tracks to 0, 1, 2, ... without gaps, keeping their order and their events.", "quantifier": "every set of tracks", "why_tests_cant": "Universal over sets of track numbers.", "anchors": ["ndspy/extras/music.py:SSEQMusic.collapseTrackIDs"]}
{"id": "C75", "title": "Rendered textures have the pixels their format defines", "statement": "With prepared colour tables and a palette of 16-bit colours, renderTextureData gives, row by row, exactly the pixel that each of the seven formats defines (including the mixed colours of compressed textures), and it succeeds exactly when data and palette suffice for every pixel.", "quantifier": "every format, data, palette and covered size", "why_tests_cant": "Universal over data, palettes and sizes; four-pixel and block iteration orders.", "anchors": ["ndspy/texture.py:renderTextureData"]}
{"id": "C76", "title": "Texture.render works with a Palette", "statement": "Texture.render renders a texture with a Palette object as documented.", "quantifier": "every texture and palette", "why_tests_cant": "The library has no test; the failure depends on the type of the colours.", "anchors": ["ndspy/texture.py:Texture.render", "ndspy/color.py:prepareLUTs"]}
{"id": "C77", "title": "Which ROMs can be saved", "statement": "NintendoDSRom.save succeeds exactly when the overlay tables refer to existing files, sorted IDs are not below minus the number of files, the names can be saved, the banner has the length of its version, and every header attribute has its length and range (for images below 4 GiB).", "quantifier": "every ROM object whose image has less than 4 GiB", "why_tests_cant": "Universal over forty attributes and unbounded file lists.", "anchors": ["ndspy/rom.py:NintendoDSRom.save"]}
{"id": "C78", "title": "Updating the device capacity", "statement": "save(updateDeviceCapacity=True) writes the smallest capacity that holds the image and changes nothing else but the header checksum.", "quantifier": "every ROM that saves", "why_tests_cant": "Universal over image sizes; the rounding of the logarithm matters only at powers of two.", "anchors": ["ndspy/rom.py:NintendoDSRom.save"]}
{"id": "C79", "title": "Signature, padding and data behind ARM9 survive saving", "statement": "Loading a saved ROM gives back the RSA signature, the padding behind the header and the data behind ARM9 in the stated cases, and precisely stated values otherwise.", "quantifier": "every ROM that saves", "why_tests_cant": "Universal over contents; what is lost depends on lengths and on marker bytes.", "anchors": ["ndspy/rom.py:NintendoDSRom.save", "ndspy/rom.py:NintendoDSRom.__init__"]}
{"id": "C80", "title": "Which images can be loaded", "statement": "Any bytes can be loaded as a ROM unless the banner begins behind the end or the file name table cannot be loaded; the parts and files of the loaded ROM are those that the header and the file allocation table point at.", "quantifier": "every byte string", "why_tests_cant": "Universal over arbitrary, also truncated and hostile, images.", "anchors": ["ndspy/rom.py:NintendoDSRom.__init__"]}
{"id": "C81", "title": "sortedFileIds is the order of the files in the image", "statement": "After loading, sortedFileIds has the file IDs in the order in which the files begin in the image; of files that begin at the same place only the last is there.", "quantifier": "every image that loads", "why_tests_cant": "Universal over file allocation tables.", "anchors": ["ndspy/rom.py:NintendoDSRom.__init__"]}
{"id": "C82", "title": "A saved ROM is a fixed point", "statement": "Saving a ROM, loading the image and saving it again gives the same bytes.", "quantifier": "every ROM that saves, without empty files, negative sorted IDs, overlong signature or foreign data behind ARM9", "why_tests_cant": "Universal over contents; depends on the placement order being reconstructed from offsets.", "anchors": ["ndspy/rom.py:NintendoDSRom.save", "ndspy/rom.py:NintendoDSRom.__init__"]}
{"id": "C83", "title": "ROM files by name", "statement": "After setFileByName, getFileByName of the same name gives the new data, every other file and attribute is unchanged, and unknown names raise ValueError in both.", "quantifier": "every ROM, name and data", "why_tests_cant": "Universal over trees and names; several names may denote the same file.", "anchors": ["ndspy/rom.py:NintendoDSRom.getFileByName", "ndspy/rom.py:NintendoDSRom.setFileByName"]}
{"id": "C84", "title": "A saved sound archive loads back", "statement": "Loading a saved sound archive gives all eight lists with the same names, order, empty slots and numbers; every item has its own data (with zeros behind it only if lengths include padding) and its file number as merge ID; wave archive IDs are filled up to four and player channels sorted without repetitions.", "quantifier": "every sound archive that saves, with names without NUL and known group entries", "why_tests_cant": "Universal over lists, names, shared files and settings; offsets of all tables depend on everything before them.", "anchors": ["ndspy/soundArchive.py:SDAT.save", "ndspy/soundArchive.py:SDAT._initFromData"]}
{"id": "C85", "title": "Padding in files loaded from a sound archive", "statement": "An item loaded from a saved archive has its own data; zeros up to a multiple of the file alignment follow exactly if lengths include padding, and not for the last file of an archive that is not padded at its end.", "quantifier": "every sound archive that saves and every file used in it", "why_tests_cant": "Universal over file sizes, alignments and settings.", "anchors": ["ndspy/soundArchive.py:SDAT.save", "ndspy/soundArchive.py:SDAT._initFromData"]}
{"id": "C86", "title": "Layout of a saved sound archive", "statement": "The header gives the offsets and sizes of the blocks, which follow each other up to the stated total size; the file table lists every distinct file once, in the order of first use, at aligned places that hold its data; all bytes between and behind the files are zero.", "quantifier": "every sound archive that saves", "why_tests_cant": "Universal over contents and settings; sizes depend on names, tables and padding.", "anchors": ["ndspy/soundArchive.py:SDAT.save"]}
{"id": "C87", "title": "Files and settings of any loaded sound archive", "statement": "Whatever data a sound archive is loaded from, every item's data is what the file table says for the file number that becomes its merge ID, and the alignments, the kind of lengths and the padding at the end are determined from the table in the stated way.", "quantifier": "every byte string that loads", "why_tests_cant": "Universal over arbitrary, also foreign, files.", "anchors": ["ndspy/soundArchive.py:SDAT._initFromData"]}
{"id": "C88", "title": "When a sound archive can be saved", "statement": "Saving succeeds exactly if names are Latin-1, numbers fit their fields, banks have at most four wave archives, alignments in use are not zero, the sizes fit 32 bits, and no nameless empty slot precedes the first named sequence archive.", "quantifier": "every sound archive", "why_tests_cant": "Universal over contents; the conditions on sizes involve all tables.", "anchors": ["ndspy/soundArchive.py:SDAT.save"]}
{"id": "C89", "title": "Saving a loaded sound archive again", "statement": "Saving an archive, loading it and saving it again gives the same bytes.", "quantifier": "every sound archive that saves, with alignments that are powers of two up to 0x200", "why_tests_cant": "Universal over contents; depends on guessing settings from offsets and lengths.", "anchors": ["ndspy/soundArchive.py:SDAT.save", "ndspy/soundArchive.py:SDAT._initFromData"]}
{"id": "C90", "title": "Items of any loaded sound archive", "statement": "Whatever data a sound archive is loaded from, its eight lists contain exactly the items that the tables of the INFO block point at, field by field at their documented places, paired by position with the names that the tables of the SYMB block point at; the longer of the two tables determines the length, and zero offsets give empty slots and missing names.", "quantifier": "every byte string that loads", "why_tests_cant": "Universal over arbitrary, also foreign, files; a round trip test cannot notice two fields swapped in both directions.", "anchors": ["ndspy/soundArchive.py:SDAT._initFromData", "ndspy/soundGroup.py", "ndspy/soundStream.py"]}
{"id": "C91", "title": "Parsing display lists", "statement": "Parsing any display list data of a 3D model ends; from groups of four geometry commands with as many parameter words as the hardware gives to each command, exactly these commands are parsed, so parameters are never taken for commands or the other way round.", "quantifier": "every byte string; every list of groups of commands with their parameters", "why_tests_cant": "Universal over command lists of any length; an error in one parameter count shifts all that follows.", "anchors": ["ndspy/model.py:NSBMD._parseDisplayList"]}
{"id": "C92", "title": "Blocks of any loaded 3D model", "statement": "Whatever data a model is loaded from, the kept model block is the last one the header points at, the models are those named in its table, and textures and palettes are the same as those of an NSBTX file with the last texture block; without such a block there are none.", "quantifier": "every byte string that loads", "why_tests_cant": "Universal over arbitrary files with any number and order of blocks.", "anchors": ["ndspy/model.py:NSBMD._initFromData"]}
{"id": "C93", "title": "Saving a 3D model", "statement": "A model saves exactly if it has a model block, its textures can be saved as an NSBTX file and the size fits 32 bits; the file has the right header and block offsets, the model block byte for byte, and the same texture block as the exported NSBTX file.", "quantifier": "every model", "why_tests_cant": "Universal over contents of both blocks.", "anchors": ["ndspy/model.py:NSBMD.save", "ndspy/model.py:NSBMD.exportNSBTX"]}
{"id": "C94", "title": "Replacing the textures of a 3D model", "statement": "After loading a model whose model block is not cut off by the end of the file and importing textures and palettes that a file can represent, saving and loading gives the same model block, names, textures and palettes; what is imported is exported again.", "quantifier": "every file that loads and every NSBTX object", "why_tests_cant": "Universal over files, textures and palettes.", "anchors": ["ndspy/model.py:NSBMD.importNSBTX", "ndspy/model.py:NSBMD.save", "ndspy/model.py:NSBMD._initFromData"]}
{"id": "C95", "title": "Names of notes", "statement": "The name of a note, read in Helmholtz pitch notation, is the number of that note; so different notes have different names.", "quantifier": "every integer", "why_tests_cant": "Universal over integers, with loops in both directions.", "anchors": ["ndspy/_common.py:noteName"]}
{"id": "C96", "title": "Button and cell files, byte by byte", "statement": "A BNBL or BNCL object loads from any bytes exactly if the magic word is right and all records fit, and then consists of the numbers, alignments and flags found at the documented places; so saved files have them there, too.", "quantifier": "every byte string; every object with coordinates of twelve bits and proper alignments that saves", "why_tests_cant": "Universal over arbitrary, also foreign, files; a round trip test cannot notice a field written to and read from the same wrong place.", "anchors": ["ndspy/bnbl.py:BNBL", "ndspy/bncl.py:BNCL"]}
{"id": "C97", "title": "Sampled sound files, byte by byte", "statement": "SWAV, SWAR and STRM objects load from any bytes exactly if magic words, versions, wave types and block names are right and the parts that are read fit, and then consist of what is found at the documented places: the settings, the waves between the offsets, and for streams the blocks of each channel; so saved files have them there, too.", "quantifier": "every byte string; every object with a known wave type that saves", "why_tests_cant": "Universal over arbitrary, also foreign, files with any number of waves, channels and blocks; a round trip test cannot notice an error made symmetrically.", "anchors": ["ndspy/soundWave.py:SWAV", "ndspy/soundWaveArchive.py:SWAR", "ndspy/soundStream.py:STRM"]}
{"id": "C98", "title": "Overlay tables, byte by byte", "statement": "An overlay table loads exactly if it consists of whole records of 32 bytes and the callback opens the files of the selected overlays. One overlay per selected ID is loaded, in the order of the table (of several records with the same ID the last one counts), with the address, sizes, initializers, file ID, compressed size and flags found at the documented places, and the data that the callback returns for its file.", "quantifier": "every byte string, every callback and every list of IDs", "why_tests_cant": "Universal over tables of any length.", "anchors": ["ndspy/code.py:loadOverlayTable"]}
{"id": "C99", "title": "Filename tables and NARC archives, byte by byte", "statement": "From any bytes the tree of names is loaded that the records and entries describe, starting at the root folder, and nothing else; a saved table stores every folder under the next ID of a walk through the tree, with the ID of its parent (for the root the number of folders). A NARC archive loads exactly if its three blocks are right, with the files delimited by the allocation table.", "quantifier": "every byte string; every tree and archive that saves", "why_tests_cant": "Universal over arbitrary, also foreign, data and over trees of any depth; parent IDs are never read back by the library, so no round trip shows them.", "anchors": ["ndspy/fnt.py:load", "ndspy/fnt.py:save", "ndspy/narc.py:NARC"]}
{"id": "C100", "title": "Headers of saved files", "statement": "Saved SWAV, SWAR, STRM, SSEQ, SSAR, SBNK, NARC and NSBTX files begin with the standard header: name, byte order mark, version, the length of the file, the header's size and the number of blocks; the blocks have their names and sizes; reserved words are zero.", "quantifier": "every object that saves", "why_tests_cant": "Universal over objects; most of these fields are not read back by the library, so no round trip shows them.", "anchors": ["ndspy/_common.py:NDS_STD_FILE_HEADER", "ndspy/soundWave.py:SWAV.save", "ndspy/soundWaveArchive.py:SWAR.save", "ndspy/soundStream.py:STRM.save", "ndspy/soundSequence.py:SSEQ.save", "ndspy/soundSequenceArchive.py:SSAR.save", "ndspy/soundBank.py:SBNK.save", "ndspy/narc.py:NARC.save", "ndspy/texture.py:NSBTX.save"]}
{"id": "C101", "title": "Model blocks of 3D model files, byte by byte", "statement": "A model block can be parsed exactly if its list of models and, for every model, the lists of materials, textures, palettes and polygons have the right headers and lie within the block, the lists of textures and palettes directly following the list before them; the names of the models are those found in the first list.", "quantifier": "every byte string", "why_tests_cant": "Universal over arbitrary, also foreign, blocks with any number of models and polygons; which of the many length fields are checked shows only on files that violate them.", "anchors": ["ndspy/model.py:NSBMD._parseMDL0"]}
{"id": "C102", "title": "Texture and model files, byte by byte", "statement": "NSBTX and NSBMD objects load from any bytes exactly if the headers and lists are right and lie within the file, and then have what is found at the documented places: for each texture its settings (bits of the parameter word) and its pixels in the area of its format; for each palette the colours up to where the next one begins, or none if another one begins at the same place, where palettes with the same name and numbers share the place of the last of them; for models the last model block and the last texture block.", "quantifier": "every byte string; every object that a file can represent and that saves", "why_tests_cant": "Universal over arbitrary, also foreign, files with any number of textures, palettes and blocks; a round trip test cannot notice a symmetric error.", "anchors": ["ndspy/texture.py:NSBTX", "ndspy/texture.py:_readTEX0", "ndspy/_common.py:loadInfoBlock", "ndspy/model.py:NSBMD._initFromData"]}
{"id": "C103", "title": "Instrument banks, byte by byte", "statement": "A single note, range or regional instrument is read from any place of any bytes exactly if it lies within them, with every field at its documented place, and it is known how many bytes it takes. Loading a bank gives the instrument of every slot of the table, the wave archive IDs without Nones at the end, and possibly instruments that the table does not mention: these are read from bytes behind the table that belong to no instrument of it, no two of them overlap, they do not break the order of the kinds, and each is filed under the slot whose instrument begins last before it. Every byte that belongs to no instrument of the table belongs to one of these, or is one of the last two, or is one of the two bytes from a place on where too few bytes are available or where they do not look like an instrument of a kind that keeps the order. If the file has the bytes its header says, it loads exactly if the headers, the table and the instruments of the table are right; if all bytes but padding belong to instruments of the table, nothing else is found.", "quantifier": "every byte string; every way to choose among the types that remain possible for unmentioned bytes", "why_tests_cant": "Universal over arbitrary, also foreign, files with any number of instruments and unmentioned bytes; a round trip test cannot notice a symmetric error.", "anchors": ["ndspy/soundBank.py:SBNK._initFromData", "ndspy/soundBank.py:NoteDefinition.fromData", "ndspy/soundBank.py:RangeInstrument.fromData", "ndspy/soundBank.py:RegionalInstrument.fromData", "ndspy/soundBank.py:guessInstrumentType"]}
{"id": "C104", "title": "Guessing the kind of unmentioned instrument data", "statement": "guessInstrumentType only returns candidates (types 2 and 3 count as 1), and if the data looks like one of the candidates, it returns one that the data looks like: for a single note, the pitch is the middle C, or the high bytes of both numbers are below 10 and the pitch is not zero; for a range instrument, the range is not empty and its notes fit into the available bytes; for a regional one, the region ends are strictly ascending, followed by zeros, and the notes fit. Contrary to the documentation, it does not rule out single notes that are too long for the available bytes, so loading a bank can find an instrument that overlaps one of the table.", "quantifier": "every byte string, place, set of candidates and number of available bytes; every way to choose among the remaining types", "why_tests_cant": "Universal over data; the two failures need particular gaps between instruments.", "anchors": ["ndspy/soundBank.py:guessInstrumentType"]}
{"id": "C105", "title": "Order of the data in a saved instrument bank", "statement": "If no two instruments of a bank share a merge ID, the data in the saved file is ordered as documented: first the inaccessible instruments under None, then single notes, range instruments, regional instruments, each ordered by bankOrderKey and then by slot, each directly followed by the inaccessible instruments listed under its slot; behind them those listed under slots that do not exist. Also with sharing, the data of all these inaccessible instruments is in the file. Inaccessible instruments listed under an empty slot are silently lost.", "quantifier": "every bank that saves", "why_tests_cant": "Universal over banks with any number of instruments; inaccessible instruments are not found again reliably, so no round trip shows where they are.", "anchors": ["ndspy/soundBank.py:SBNK.save"]}
{"id": "C106", "title": "Sequence data, byte by byte", "statement": "At any place of any bytes, an event is read exactly if the bytes of such an event are there, with command code, values and references at the documented places; it is known how many bytes it takes, and the library moves on by as many, unless a variable-length number is padded or the event is a short from-variable event, which takes four bytes but is taken for three. Every event listed when sequence data is read is there in the data, and every event of a list that is saved, other than from-variable events, with values in range, is there in the saved data, referring to the places of the events it refers to. SSEQ and SSAR files load from any bytes exactly if the headers are right and lie within the file, with the fields of each sequence at the documented places.", "quantifier": "every byte string and place; every list of events that saves", "why_tests_cant": "Universal over arbitrary, also foreign, data; a round trip test cannot notice a symmetric error.", "anchors": ["ndspy/soundSequence.py:readSequenceEvents", "ndspy/soundSequence.py:saveSequenceEvents", "ndspy/soundSequence.py:SSEQ", "ndspy/soundSequenceArchive.py:SSAR._initFromData"]}
{"id": "C107", "title": "Which bytes of sequence data become events", "statement": "If the events that playback can get to have the lengths that their values need: everything that readSequenceEvents lists as an event is at a place that playback from the starting points can get to (events behind if-events may be skipped, calls return); and every place that playback gets to without skipping events (other than conditional jumps that are only got to from their if-event) and without returning from subroutines that jump or start tracks is listed as an event or lies inside one, so it is never kept as raw data. This is not so for all places that playback can get to: what is behind a conditional end of track, and what is behind the second call of a subroutine that begins with a jump, is kept as raw data.", "quantifier": "every byte string and list of starting points that can be read, with any nesting of calls, jumps and tracks", "why_tests_cant": "Universal over control flow graphs of any shape, including loops and recursion; the reader's bookkeeping of what is being visited goes wrong only for particular shapes.", "anchors": ["ndspy/soundSequence.py:readSequenceEvents"]}
{"id": "C108", "title": "BMG files, byte by byte", "statement": "Bytes load as a BMG exactly if they begin with the magic word and a header of known encoding, and all sections are of known kinds and lie within the file as far as they hold numbers. What is loaded is then at the documented places, in the byte order in which the stated length is smaller: the places and attributes of the messages (of all INF1 sections), the ID of the last INF1 section, the instructions and labels that are not all zeros, the scripts, the three unknown words of the header. A message is, from its place in the last DAT1 section up to a null character, its texts and escape sequences, with the type and data of each escape where its length says; text from place 0 up to the first escape sequence is ignored, and a message is null exactly if it ends at place 0. A saved BMG whose byte order can be told has its contents at these places, apart from what a file does not hold.", "quantifier": "every byte string, in both byte orders and all four encodings", "why_tests_cant": "Universal over arbitrary, also foreign, files with any number of sections and messages; a round trip test cannot notice a symmetric error.", "anchors": ["ndspy/bmg.py:BMG._initFromData", "ndspy/bmg.py:BMG.save"]}
{"id": "C109", "title": "Colours, palettes, tiles and tilemaps, bit by bit", "statement": "A 16-bit colour has red, green and blue in five bits each from the lowest bit on and alpha in the highest; as two bytes the lower one comes first; with eight bits, a channel x is 8x + x // 4 and alpha is 0 or 255. A colour of five bits per channel and one of alpha, in any of the formats, is converted to what it is in every other one. The colours of a palette, the pixels of image tiles (lower half of a byte first for four bits) and the entries of tilemaps are in order, with tile number, flips and palette number in the documented bits; a 16-bit tilemap of odd length is refused.", "quantifier": "every byte string, colour and pair of formats", "why_tests_cant": "Universal over all data; a round trip test cannot notice a symmetric error such as swapped channels.", "anchors": ["ndspy/color.py:convert", "ndspy/color.py:unpack", "ndspy/color.py:pack", "ndspy/color.py:loadPalette", "ndspy/graphics2D.py:loadImageTiles", "ndspy/graphics2D.py:loadTilemapTiles"]}
{"id": "C110", "title": "Decompressing any data", "statement": "lz10.decompress succeeds on any bytes exactly if they begin with 0x10 and the stream of flag bytes, literals and references behind the length has the declared number of bytes in it; the result is what the stream means. A reference that goes on beyond the declared length is cut off, and one to before the start of the output is taken from the end of it, where there are zeros at first. Whatever follows the stream changes nothing. codeCompression.decompress looks for a footer at 0, 4, ... 28 bytes before the end; with the first one that is plausible, it succeeds exactly if the lengths fit, the header is padded with 0xFF and the compressed part, read backwards, has exactly as many bytes in it as the footer says, a distance to before the start meaning two; without one, the data comes back as it is, unless it has 5 to 35 bytes and no multiple of four.", "quantifier": "every byte string", "why_tests_cant": "Universal over arbitrary, also corrupt, streams; a round trip only shows the streams that the library's own compressor writes.", "anchors": ["ndspy/lz10.py:decompress", "ndspy/codeCompression.py:decompress", "ndspy/codeCompression.py:_detectAppendedData"]}
{"id": "C111", "title": "Main code files, byte by byte", "statement": "The code settings of any uncompressed main code file are found where the pointer says, if that is inside the file; else 0x1C before the first magic number on a multiple of four below 0x8000; else where the address of the end of the file follows a plausible address of a table; else nowhere. The file loads exactly if this search succeeds (it raises if the end address is found at place 1, 2 or 3) and the settings and all entries of the table they describe are in the file. The implicit section goes up to the place in the settings' third word; each other section has its address, size and bss size in the twelve bytes of its table entry, and its data lies behind that of the sections before it.", "quantifier": "every byte string, RAM address and pointer", "why_tests_cant": "Universal over arbitrary, also foreign, files; a round trip test cannot notice a symmetric error.", "anchors": ["ndspy/code.py:MainCodeFile.__init__", "ndspy/code.py:MainCodeFile._searchForCodeSettingsOffs"]}
{"id": "C112", "title": "ROM images, byte by byte", "statement": "Bytes load as a ROM exactly if the banner, if there is one, begins inside the image and the file name table, if it is not empty, can be loaded. What is loaded is then at the documented places: each attribute in its bytes of the header, the code, overlay tables, banner (of the size that its version asks for) and debug ROM where the header says, the files where the file allocation table says, the signature where the word at 0x1000 or else the one at 0x80 says, the records behind ARM9 as long as they begin with 21 06 C0 DE, and the file IDs in the order in which the files begin. Nothing else decides what is loaded. A saved image has everything at these places, with both words for the signature equal, 0x4000 as the size of the header, and the checksums of the logo and of the header where the console expects them.", "quantifier": "every byte string and every ROM that can be saved", "why_tests_cant": "Universal over arbitrary, also foreign, images; a round trip test cannot notice a symmetric error such as two fields swapped in both directions.", "anchors": ["ndspy/rom.py:NintendoDSRom._initFromData", "ndspy/rom.py:NintendoDSRom.save"]}
{"id": "C113", "title": "The checksum is the standard CRC-16", "statement": "The checksum of any bytes is the remainder of the message polynomial (bytes in order, lowest bits first, times x^16, with 16 ones added at the top) in the division by x^16 + x^15 + x^2 + 1, written with its lowest coefficient in the highest bit; no other 16-bit number is.", "quantifier": "every byte string", "why_tests_cant": "Universal over byte strings of any length; check values of some strings do not settle it.", "anchors": ["ndspy/_common.py:crc16"]}
{"id": "C114", "title": "Sequence objects over any run of operations", "statement": "Whatever is done to an SSEQ or SSAR object loaded from a file (reading and assigning .events, .eventsData, .sequences, trying to parse, saving): as long as no parse() has succeeded, saving writes the data last assigned to .eventsData, at first that of the file, and .events cannot be read; failed attempts at parsing leave no trace. Once parse() has succeeded, saving writes the events last assigned since, at first those read from the data, .eventsData cannot be read, and nothing leads back. Objects made from events are in that state from the start. Contrary to what one would expect, an assignment to .events before parse() is accepted and then lost.", "quantifier": "every file and every finite run of operations, including ones that raise", "why_tests_cant": "Universal over histories of any length; tests exercise a few orders of operations.", "anchors": ["ndspy/soundSequence.py:SSEQ", "ndspy/soundSequenceArchive.py:SSAR"]}
{"id": "C115", "title": "Editing an overlay of a ROM", "statement": "Load the ARM9 (or ARM7) overlays of any ROM, change one of them in any way but its file ID, save it compressed or not, put the file and the saved table back into the ROM, save the ROM: the image loads again, and its overlays are the ones from before with the changed one, data and all attributes, in its place; all other files and the overlays of the other processor are as they were. The file must be below 16 MiB, if compressed shorter than the data, and not be used by another overlay.", "quantifier": "every ROM, overlay and change", "why_tests_cant": "Universal over ROMs with any number of overlays and files; involves compression, table, file allocation and image together.", "anchors": ["ndspy/rom.py:NintendoDSRom.loadArm9Overlays", "ndspy/rom.py:NintendoDSRom.loadArm7Overlays", "ndspy/code.py:saveOverlayTable", "ndspy/code.py:Overlay.save", "ndspy/rom.py:NintendoDSRom.save"]}
{"id": "C116", "title": "Code and files of a saved ROM", "statement": "After saving a ROM and loading the image, loadArm9, loadArm7, loadArm9Overlays, loadArm7Overlays and getFileByName give or raise just what they did before. A file replaced with setFileByName is in the image under its name, and names of other files give what they gave. Main code that is saved and put into the ROM is loaded from the image with the same sections, compressed or not, under the conditions under which it can be loaded at all (see the properties of main code files).", "quantifier": "every ROM that can be saved, every name, every main code file", "why_tests_cant": "Universal over ROMs and code; involves the code format, compression and the image together.", "anchors": ["ndspy/rom.py:NintendoDSRom.loadArm9", "ndspy/rom.py:NintendoDSRom.loadArm7", "ndspy/rom.py:NintendoDSRom.setFileByName", "ndspy/rom.py:NintendoDSRom.getFileByName"]}
{"id": "C117", "title": "The objects in a sound archive come back", "statement": "If an SDAT made of any SSEQ, SSAR, SBNK, SWAR, STRM, player and group objects can be saved, loading the file gives the same lists of names and objects, with empty slots where there were empty slots: sequences and sequence archives unparsed, with the data they had or the bytes of their events, the same attributes and names, and each sequence of an archive beginning where its first event was put; banks with the same instruments and wave archive numbers (-1 as an empty slot, none at the end); the same waves and streams with all attributes; players with their channels in order, once each, below 16; the same groups and stream players. Needed are names without NUL, known group and wave types, and instruments that loading can tell apart.", "quantifier": "every archive of objects that can be saved, parsed or not, any number of items sharing files or not", "why_tests_cant": "Universal over archives of any size; involves all sound formats, the file table and padding together.", "anchors": ["ndspy/soundArchive.py:SDAT.save", "ndspy/soundArchive.py:SDAT._initFromData", "ndspy/soundSequence.py:SSEQ.save", "ndspy/soundSequenceArchive.py:SSAR.save", "ndspy/soundBank.py:SBNK.save", "ndspy/soundWaveArchive.py:SWAR.save", "ndspy/soundStream.py:STRM.save"]}
{"id": "C118", "title": "The objects in a sound archive stay, however often it is saved and loaded", "statement": "After any number of rounds of saving and loading, the objects are still what they were after the first one (in the sense of the property before): padding that archives put behind files never becomes part of sequences, waves, streams or banks. What was readable once stays readable.", "quantifier": "every archive of objects and every number of rounds", "why_tests_cant": "Universal over the number of rounds; the padding settings change from round to round.", "anchors": ["ndspy/soundArchive.py:SDAT.save", "ndspy/soundArchive.py:SDAT._initFromData"]}
{"id": "C119", "title": "Saving a sound archive of loaded objects again gives the same file", "statement": "Loading a saved SDAT and saving it again gives the same bytes. This is so exactly if the settings found out when loading lead to the same size and the same length of the last file, in particular if the alignment found out divides the length of the last file, or if alignment and kind of lengths were found out correctly. Otherwise the file may change, even twice in a row, but from the second loading on it stays.", "quantifier": "every archive of objects with alignments that divide 0x200 and no inaccessible instruments", "why_tests_cant": "Universal over archives; depends on the lengths of all files and on guesses.", "anchors": ["ndspy/soundArchive.py:SDAT.save", "ndspy/soundArchive.py:SDAT._initFromData"]}
{"id": "C120", "title": "Writing files is all or nothing", "statement": "A call of any saveToFile, ...ToFile function or command line tool either raises and leaves every file as it was, or writes exactly the bytes that the corresponding save (compress, decompress) function returns to its file and leaves every other file as it was. It raises nothing exactly if those bytes can be made and the file can be opened for writing. After any program of such calls, each file is as it was or holds exactly what one of the calls wrote, and a file that no call is asked to write is as it was.", "quantifier": "every file system, every object and every program of calls, some of which may raise", "why_tests_cant": "Universal over file systems, objects and sequences of calls including failing ones.", "anchors": ["ndspy/bmg.py:BMG.saveToFile", "ndspy/bnbl.py:BNBL.saveToFile", "ndspy/bncl.py:BNCL.saveToFile", "ndspy/code.py:MainCodeFile.saveToFile", "ndspy/color.py:savePaletteToFile", "ndspy/graphics2D.py:saveImageTilesToFile", "ndspy/graphics2D.py:saveTilemapTilesToFile", "ndspy/narc.py:NARC.saveToFile", "ndspy/rom.py:NintendoDSRom.saveToFile", "ndspy/soundArchive.py:SDAT.saveToFile", "ndspy/soundBank.py:SBNK.saveToFile", "ndspy/soundSequence.py:SSEQ.saveToFile", "ndspy/soundSequenceArchive.py:SSAR.saveToFile", "ndspy/soundStream.py:STRM.saveToFile", "ndspy/soundWave.py:SWAV.saveToFile", "ndspy/soundWaveArchive.py:SWAR.saveToFile", "ndspy/lz10.py:compressToFile", "ndspy/codeCompression.py:compressToFile"]}
{"id": "C121", "title": "What was saved to a file is loaded from it", "statement": "After a saveToFile (or ...ToFile) that raised nothing and any further calls that write other files, the corresponding fromFile (...FromFile) gives the object back, under the conditions and up to the differences of the round trip through bytes. Attributes that are not in the file (of SSEQ, SSAR, SBNK, SWAR and STRM objects) are those given to fromFile. False for SWAR.fromFile, which ignores its argument unk02.", "quantifier": "every object, every file system, and every program of calls in between", "why_tests_cant": "Universal over objects and over what else is written in between.", "anchors": ["ndspy/bmg.py:BMG.fromFile", "ndspy/bnbl.py:BNBL.fromFile", "ndspy/bncl.py:BNCL.fromFile", "ndspy/code.py:MainCodeFile.fromFile", "ndspy/color.py:loadPaletteFromFile", "ndspy/graphics2D.py:loadImageTilesFromFile", "ndspy/graphics2D.py:loadTilemapTilesFromFile", "ndspy/narc.py:NARC.fromFile", "ndspy/rom.py:NintendoDSRom.fromFile", "ndspy/soundArchive.py:SDAT.fromFile", "ndspy/soundBank.py:SBNK.fromFile", "ndspy/soundSequence.py:SSEQ.fromFile", "ndspy/soundSequenceArchive.py:SSAR.fromFile", "ndspy/soundStream.py:STRM.fromFile", "ndspy/soundWave.py:SWAV.fromFile", "ndspy/soundWaveArchive.py:SWAR.fromFile"]}
{"id": "C122", "title": "The command line tools of lz10 and codeCompression", "statement": "Decompressing with the tool what it compressed writes the data there was at first (for codeCompression if it got shorter), whatever is done to other files in between; no file but the output is changed. If no output is given, it is the input with its suffix replaced by (or, without suffix, followed by) .cmp or .dec; so the input is overwritten exactly if it has this suffix already, and the tool raises if the input has no name.", "quantifier": "every file, every name of input and output", "why_tests_cant": "Universal over names and contents of files.", "anchors": ["ndspy/lz10.py:main", "ndspy/codeCompression.py:main"]}
{"id": "C123", "title": "MainCodeFile.fromCompressed", "statement": "MainCodeFile.fromCompressed(data, ...) gives the same object as MainCodeFile(data, ...), which decompresses the data if need be. This is so if the decompressed data does not look compressed itself. Otherwise fromCompressed decompresses it a second time and the code is another.", "quantifier": "all data, addresses and pointers", "why_tests_cant": "Universal over data; the condition concerns what is inside of compressed data.", "anchors": ["ndspy/code.py:MainCodeFile.fromCompressed"]}
{"id": "C124", "title": "Times computed with floats are exact", "statement": "save(updateTime=True) of a wave (SWAV) sets its time to the integer quotient of 16756991 and the sample rate, and of a stream (STRM) to that of 16756991 and 32 times the sample rate, although these are computed with floats that are rounded once and four times. The saved stream loads back with the new time, nothing else about the object changes, and without updateTime nothing changes at all. A wave that is fine otherwise can be saved so exactly from a sample rate of 256 on, a stream from 8 on; a sample rate of 0 raises ZeroDivisionError and changes nothing, a smaller one struct.error, after which the stream keeps a time with which it can never be saved.", "quantifier": "every sample rate, every wave and every stream", "why_tests_cant": "Universal over sample rates: whether rounding is harmless depends on the distance of each quotient from the next integer.", "anchors": ["ndspy/soundWave.py:SWAV.save", "ndspy/soundStream.py:STRM.save"]}
{"id": "C125", "title": "What compressing writes", "statement": "lz10.compress() and codeCompression.compress() write one particular stream, which can be told without running them: at each place the longest back reference of 3 to 18 bytes that do not overlap the place, in LZ10 the farthest one within 0x1000 bytes, in code compression (which goes through the data from its end) the nearest one within 0x1002 bytes, and a literal where there is none. Flags come before each eight items; LZ10 fills the last block with null bytes. Code compression keeps the shortest beginning of the items that saves more bytes than all of them, if there is one, and leaves the rest of the data at the front as it is; it stores the data uncompressed if the stream is too long, and raises struct.error if the result with its footer would be longer than the data. LZ10 never needs more than 9/8 of the data and 12 bytes, and never less than 17/144.", "quantifier": "all data", "why_tests_cant": "Universal over data: the longest match among thousands of places at each position, and the cut among all positions.", "anchors": ["ndspy/_lzCommon.py:compress", "ndspy/lz10.py:compress", "ndspy/codeCompression.py:compress", "ndspy/codeCompression.py:_compress"]}
{"id": "C126", "title": "Minified music sounds the same when played", "statement": "Whatever way a sequence is played (jumps, calls, loops, conditions, random numbers, tracks being begun), the sequence after minifyByEvents, minifyBySseq, minifyBySseqs or SSEQMusic.minify can be played passing the same places, and every note that had a sound has the same sound with the minified bank and wave archives; and conversely. This is so if all of the instruments are of the PCM type and use one wave archive, pitches are from 0 to 127, and whenever a note is played a note of this pitch is also in the list behind a switch to the instrument it is played with; in particular if tracks switch to an instrument before their first note, there are no subroutines, and jumps lead to places with the same instrument. It is false of notes before any switch to an instrument, of notes in subroutines, and of notes with a random duration. minifyBySseq(s) does what minifyBySseqs([s]) does if s is parsed and raises ValueError otherwise.", "quantifier": "every sequence, bank, wave archives and every run", "why_tests_cant": "Universal over runs of unlimited length of arbitrary sequences.", "anchors": ["ndspy/extras/music.py:minifyByEvents", "ndspy/extras/music.py:minifyBySseq", "ndspy/extras/music.py:minifyBySseqs", "ndspy/extras/music.py:SSEQMusic.minify"]}
{"id": "C127", "title": "repr() of an object evaluates back to an equal object", "statement": "The text that repr() returns for an object of one of ndspy's classes is a Python expression, and evaluating it (with the library's classes in scope) gives an object with the same attributes. Shown for every BNBL, BNCL, touch area, image position, folder tree and sequence player; for palettes exactly when they have at most 20 colours, for messages exactly when they are not null and have no escapes, for note definitions exactly when their type is no member of NoteType, and for sequence events exactly when they hold neither another event nor an enum member and are no note with a velocity outside 0..127. False otherwise: a stream player always evaluates to an empty one, a group entry or a reference event never is an expression, events in a cycle raise RecursionError, overlays of more than 32 bytes and archives of more than one file are abbreviated. Of note definitions and group entries only the enum members are to blame: with their numbers in place of their texts, all of them evaluate back.", "quantifier": "for all attribute values, all names and texts of Unicode code points, all folder trees, all orders of printing sets, all graphs of events", "why_tests_cant": "The round trip depends on quoting of arbitrary strings and bytes, on nesting, and on which optional arguments are left out; sampled objects cannot exclude a string, a nesting or a combination that reads differently", "anchors": ["ndspy/bnbl.py", "ndspy/bncl.py", "ndspy/fnt.py", "ndspy/narc.py", "ndspy/code.py", "ndspy/bmg.py", "ndspy/texture.py", "ndspy/_common.py", "ndspy/soundSequencePlayer.py", "ndspy/soundStreamPlayer.py", "ndspy/soundBank.py", "ndspy/soundGroup.py", "ndspy/soundSequence.py"]}
{"id": "C128", "title": "The printed list of a folder or an archive shows every file with its ID", "statement": "str(folder) can be read back, knowing nothing else, as the list of all files and folders of the tree in order, each with its path and its (first) file ID: the shown ID of a path is the one that idOf() returns, all files that idOf() finds are shown, and two folders that print alike hold the same files and folders. str(narc) shows the same list, tells the endianness, and puts behind each file whose ID is in the list of files the first 16 bytes of exactly this file, all in one column that lies at least four spaces to the right of every name; it returns unless a file ID is so negative that it is not an index, and raises IndexError then. This is for names without line breaks and spaces in front, and file names without a slash at the end (a name with spaces in front can look like one in a subfolder).", "quantifier": "all folder trees with such names, any first IDs (also negative and above 9999), all archives", "why_tests_cant": "Universal over trees of unlimited depth: that indentation, padding and slashes can always be told apart is a statement about all combinations of names.", "anchors": ["ndspy/fnt.py:Folder._strListUncombined", "ndspy/fnt.py:Folder._strList", "ndspy/fnt.py:Folder.__str__", "ndspy/narc.py:NARC.__str__"]}
{"id": "C129", "title": "The printed form of a sequence says all that is in it", "statement": "str(sseq) of a parsed sequence, whose jumps, calls and track starts lead to events of its list, returns, and what it shows can be read back, knowing nothing else, as the attributes and the list of all events, each with its number and all its values, destinations being the numbers of events. The events read back this way save as the same bytes; so two sequences that print alike have the same attributes and save alike. An unparsed sequence shows its attributes. This is for portamento on/off events with the values 0 and 1: another value prints like a portamento event. In the printed form of an SSAR, of several sequences without a name (or with equal names) only the last is marked.", "quantifier": "all lists of events of all kinds and with any values (also ones that cannot be saved), destinations anywhere in the list, any attributes", "why_tests_cant": "Universal over unlimited lists of 40 kinds of events with unlimited values: that no two different lists print alike cannot be seen from any number of printed lists.", "anchors": ["ndspy/soundSequence.py:printSequenceEventList", "ndspy/soundSequence.py:SSEQ.__str__", "ndspy/soundSequence.py:SequenceEvent.__str__", "ndspy/soundSequenceArchive.py:SSAR.__str__"]}
{"id": "C130", "title": "Looping a song loops all its tracks alike, or says which it cannot", "statement": "SSEQMusic.loop(start, end) with 0 <= start < end succeeds exactly if no track has a jump and no note of any track sounds across either time; then every track, under its number, jumps at exactly the end time to an event at exactly the start time, so that the tracks stay together, and no event but rests is added, lost or moved in time up to there. Otherwise it raises RuntimeError, and the song is left looped in part: the tracks before the first that cannot be looped are looped, that one has all its events except rests at the same times, and the later tracks are untouched.", "quantifier": "every song whose tracks hold distinct events of non-negative length, all times, with or without clearing what follows", "why_tests_cant": "Universal over tracks and times; the state left by a failure depends on where in the order of the tracks it happens.", "anchors": ["ndspy/extras/music.py:SSEQMusic.loop", "ndspy/extras/music.py:SSEQMusic.Track.loop"]}
{"id": "C131", "title": "Objects made from their parts hold them, and come back from saving and loading as these parts", "statement": "What is given to a from... method (SWAV.fromData, SWAR.fromWaves, STRM.fromChannels, SBNK.fromInstruments, SSEQ.fromEvents, SSAR.fromEventsAndSequences, Texture.fromFlags, Palette.fromColors, NSBTX.fromTexturesAndPalettes, ImageTile.fromPixels, TilemapTile.fromParameters, BNBL.fromTouchAreas, BNCL.fromImagePositions, NARC.fromFilesAndNames, BMG.fromMessages) is what an object has that is loaded from what save() of the new object returns, whenever it saves and the parts are ones the format can hold; what is not given has the stated default. SBNK.fromInstruments drops empty wave archive slots at the end; a sequence comes back unparsed, with the bytes of its events. A wave made with a loop offset but without a total length cannot be saved. A new image tile is all zeros and transparent.", "quantifier": "all parts of any number and size; all values of the attributes", "why_tests_cant": "Universal over the parts and attributes: a default that differs from what loading sets, or an argument that goes to the wrong attribute, shows only for particular values.", "anchors": ["ndspy/soundWave.py:SWAV.fromData", "ndspy/soundWaveArchive.py:SWAR.fromWaves", "ndspy/soundStream.py:STRM.fromChannels", "ndspy/soundBank.py:SBNK.fromInstruments", "ndspy/soundSequence.py:SSEQ.fromEvents", "ndspy/soundSequenceArchive.py:SSAR.fromEventsAndSequences", "ndspy/texture.py:Texture.fromFlags", "ndspy/texture.py:Palette.fromColors", "ndspy/texture.py:NSBTX.fromTexturesAndPalettes", "ndspy/graphics2D.py:ImageTile.fromPixels", "ndspy/graphics2D.py:TilemapTile.fromParameters", "ndspy/bnbl.py:BNBL.fromTouchAreas", "ndspy/bncl.py:BNCL.fromImagePositions", "ndspy/narc.py:NARC.fromFilesAndNames", "ndspy/bmg.py:BMG.fromMessages"]}
{"id": "C132", "title": "Printed touch areas and image positions say all that is in them, and the drawing shows them where they are", "statement": "str(bnbl) and str(bncl) can be read back, knowing nothing else, as the unknown number and the list of all touch areas or image positions, in order, with their numbers and all their values; an alignment reads as the proper one that works like it. So two objects that print alike save as the same bytes (or fail alike), have their areas in the same places, and are equal if both were loaded from files. Beside the list of a BNBL with up to ten areas, none of negative size, is a drawing of the screen of 256 by 192 pixels, one character for 8 by 16 pixels, all in one column: the number of an area at its middle, a line where a pixel of the border of an area is, a blank elsewhere, each area drawn over those before it. The eleventh area has a number of two digits, which moves what is to the right of it out of its column.", "quantifier": "all numbers of areas and positions, all integers as coordinates and sizes (also negative and outside the screen), all alignments, all cells of the drawing", "why_tests_cant": "Universal over unlimited lists of areas and unlimited coordinates; that no two different lists print alike, and that the drawing is right for each overlap, cannot be seen from any number of printed examples.", "anchors": ["ndspy/bnbl.py:BNBL.__str__", "ndspy/bnbl.py:BNBL._draw", "ndspy/bnbl.py:BNBLTouchArea.__str__", "ndspy/bncl.py:BNCL.__str__", "ndspy/bncl.py:BNCLImagePosition.__str__", "ndspy/_common.py:getAlignmentName", "ndspy/_common.py:enumeratedListOfStrs"]}
{"id": "C133", "title": "Files of another kind, and damaged ones, are refused with an exception that is known beforehand", "statement": "Every kind of file with a signature (BNBL, BNCL, BMG, NARC, SDAT, SSEQ, SSAR, SBNK, SWAR, SWAV, STRM, NSBTX, NSBMD) is loaded only from data that begin with its signature and, except for the first three, state its version; so no data are accepted by the loaders of two kinds, and what an object of one kind saves is refused by all others with ValueError (by the NARC and SDAT loaders with struct.error if it is shorter than 16 bytes). Whatever the data, loading either returns or raises one of the exceptions listed for the kind, each of which occurs: ValueError and struct.error, for most also AssertionError, for NARCs also RecursionError (a folder within itself), for SDATs, SBNKs, NSBTXs and NSBMDs also IndexError, for BMGs also UnicodeError, or an endless loop. A BMG with an unknown encoding or section is refused with ValueError. Loading a ROM raises struct.error or RecursionError at most.", "quantifier": "all byte strings of any length, all thirteen kinds and ROMs, all saved objects, all recursion limits", "why_tests_cant": "Universal over all byte strings: which exceptions a caller must expect from damaged files cannot be seen from any number of them.", "anchors": ["ndspy/bnbl.py:BNBL._initFromData", "ndspy/bncl.py:BNCL._initFromData", "ndspy/bmg.py:BMG._initFromData", "ndspy/narc.py:NARC.__init__", "ndspy/soundArchive.py:SDAT._initFromData", "ndspy/soundSequence.py:SSEQ.__init__", "ndspy/soundSequenceArchive.py:SSAR.__init__", "ndspy/soundBank.py:SBNK._initFromData", "ndspy/soundWaveArchive.py:SWAR._initFromData", "ndspy/soundWave.py:SWAV._initFromData", "ndspy/soundStream.py:STRM._initFromData", "ndspy/texture.py:NSBTX._initFromData", "ndspy/model.py:NSBMD._initFromData", "ndspy/rom.py:NintendoDSRom._initFromData"]}
{"id": "C134", "title": "What was loaded from a file survives saving and loading again", "statement": "Whatever file a BNBL, BNCL, NARC, SSEQ, SSAR, SWAR, SWAV or STRM was loaded from, also one that this library did not write: if the object saves, then the new file (with the other values that save() returns for SSARs) loads as an equal object. A bank without inaccessible instruments comes back with the same instruments, wave archives and number, and from then on the same file is written again. Textures and models come back equal if the textures have all their data, no two palettes agree in name and numbers, and no palette without colours precedes one with colours; without the last condition colours are lost: two palettes of a file that share their colours are loaded as empty, and after saving the palette behind them is empty too.", "quantifier": "all byte strings that load, also files with gaps, overlaps, trailing bytes or another order than the library writes; all sizes and numbers of members", "why_tests_cant": "Universal over all files in the wild: unit tests can only save and reload the files at hand, and mostly do so with files the library itself wrote.", "anchors": ["ndspy/bnbl.py:BNBL.save", "ndspy/bncl.py:BNCL.save", "ndspy/narc.py:NARC.save", "ndspy/soundSequence.py:SSEQ.save", "ndspy/soundSequenceArchive.py:SSAR.save", "ndspy/soundBank.py:SBNK.save", "ndspy/soundWaveArchive.py:SWAR.save", "ndspy/soundWave.py:SWAV.save", "ndspy/soundStream.py:STRM.save", "ndspy/texture.py:_loadTEX0", "ndspy/texture.py:_saveTEX0", "ndspy/model.py:NSBMD.save"]}
{"id": "C135", "title": "Images show each pixel of tiles, tilemaps and textures in its place and colour", "statement": "The images from renderAsImage, renderSingleAsImage, renderImageTilesAsImage, renderTilemapTilesAsImage and renderTextureDataAsImage have the stated size, and the pixel at column X and row Y is the one of the tile at column X/8 and row Y/8, taken from the mirrored place if the tilemap says so: transparent where the tile has 0, and otherwise opaque in the colour of the chosen palette, five bits of brightness becoming eight by repeating the upper ones; for textures it is the pixel that the format defines, with its own transparency. An image is made exactly if all pixels and colours it needs are there. No colour is lost: color.convert gives the colours back from the pixels. Without Pillow RuntimeError is raised. Tiles that do not fill the last row, and textures with a Palette, give no image.", "quantifier": "all tiles, tilemaps of any size, flips, palettes and offsets, texture data in the seven formats, all colours of five bits, every pixel of every image", "why_tests_cant": "Universal over the position of every pixel in images of every size, and over all colours: a wrong stride or flip shows only for some sizes, a wrong shift only for some colours.", "anchors": ["ndspy/_common.py:colorsToImage", "ndspy/_common.py:ensurePIL", "ndspy/graphics2D.py:ImageTile.renderAsImage", "ndspy/graphics2D.py:TilemapTile.renderSingleAsImage", "ndspy/graphics2D.py:TilemapTile.renderAsImage", "ndspy/graphics2D.py:renderImageTilesAsImage", "ndspy/graphics2D.py:renderTilemapTilesAsImage", "ndspy/texture.py:renderTextureDataAsImage", "ndspy/texture.py:Texture.renderAsImage"]}
{"id": "C136", "title": "What repr() of waves, wave archives, streams, instruments, banks, sequences and textures evaluates to", "statement": "Evaluating repr() of an SWAV, SWAR, STRM, instrument, SBNK, SSEQ or Texture gives an equal object. This is false of the code; what holds is exactly this (data without quote bytes). A wave: if and only if its type is a plain number, not a member of WaveType, and there are at most 32 bytes. A wave archive: all its waves, and unk02 and merge ID 0. A stream: at most one channel of one block of at most 32 bytes, and all attributes but the five printed ones with their defaults. An instrument: no note of the types PCM, PSG and noise, no regions, order key and merge ID 0. A bank: all its instruments, unk02 and merge ID 0, no inaccessible instruments, wave archive IDs not ending with None. A parsed sequence: at most 8 events, none of which holds another event or an enum member or is a note with velocity outside 0..127. An unparsed one: only if its event data are at most 32 bytes and themselves a file with these event data, and the attributes are the defaults. A texture: sizes that can be saved, data of at most 32 bytes, format below 8 and mode below 4. In the other cases with enum members or long data the text is no expression at all.", "quantifier": "all attributes, lists and data of any length (without quote bytes), all numbers of channels, blocks, instruments, notes, regions and events, all orders of printing sets", "why_tests_cant": "Universal over all objects, and negative for most: that a text is no expression, or evaluates to another object, for every object of a kind cannot be seen from printed examples.", "anchors": ["ndspy/soundWave.py:SWAV.__repr__", "ndspy/soundWaveArchive.py:SWAR.__repr__", "ndspy/soundStream.py:STRM.__repr__", "ndspy/soundBank.py:SingleNoteInstrument.__repr__", "ndspy/soundBank.py:RangeInstrument.__repr__", "ndspy/soundBank.py:RegionalInstrument.__repr__", "ndspy/soundBank.py:SBNK.__repr__", "ndspy/soundSequence.py:SSEQ.__repr__", "ndspy/texture.py:Texture.__repr__"]}
{"id": "C137", "title": "What saving a song writes", "statement": "SSEQMusic.save() raises (IndexError) just if the only track is track 0 and is empty. If track 0 is the only track, the events of the sequence become its events, with a new end of track added just if the last is neither an end of track nor a jump. Otherwise they become an event that defines the numbers of all tracks, then for each track with events but track 0, in the order of the numbers, an event that begins it with its first event, and then the events of the tracks that have any, in that order, each followed by a new end of track just if its last is neither an end of track nor a jump. No event of the song is left out, changed or put in twice.", "quantifier": "all numbers of tracks, all track numbers, events and lengths, also empty tracks and looped ones", "why_tests_cant": "Universal over the tracks of a song: a missing end of track lets one track play on into the next, which shows only for particular last events.", "anchors": ["ndspy/extras/music.py:SSEQMusic.save"]}
{"id": "C138", "title": "A file inside archives inside a ROM is replaced, and nothing else", "statement": "Take a file that is reached from some data by any number of steps, each of them loading a NARC or a ROM and taking a file by its name, or decompressing LZ10; replace it with setFileByName, save and compress the whole way back. If no call raises, the same steps on the new data give the new file, every part of the way gives the archive as it was written there, and every other way, which parts from this one at a name for another file or for none, gives just what it gave in the old data, or raises the same.", "quantifier": "all data, also files not written by this library; ways of any length in any mixture of ROMs, archives and compression; all names and folders; all new contents; all recursion limits", "why_tests_cant": "Universal over nestings of any depth: each format may round-trip by itself while an edit within an edit loses, moves or swaps some other file, which tests with a few archives would not show.", "anchors": ["ndspy/narc.py:NARC.getFileByName", "ndspy/narc.py:NARC.setFileByName", "ndspy/narc.py:NARC.save", "ndspy/rom.py:NintendoDSRom.getFileByName", "ndspy/rom.py:NintendoDSRom.setFileByName", "ndspy/rom.py:NintendoDSRom.save", "ndspy/lz10.py:compress", "ndspy/lz10.py:decompress", "ndspy/fnt.py:Folder.idOf"]}
{"id": "C139", "title": "Printed summaries say what the object holds", "statement": "What print() shows of an object can be read back: of an overlay its address in eight digits, file number and both flags; of a main code file its address and the sections in order with address, short data and the implicit mark; of a ROM (names without quotation marks) its name without trailing spaces and its code; of a message (texts without opening brackets) its escapes with their types and data and the texts between them, so that different loaded messages print differently; of a BMG its number and the counts; of a texture the format, width and height; of a palette the count and the first twenty colours; of waves, wave archives and streams the type, rate, loop mark, numbers of channels and blocks, and volume; of notes, instruments, regions and banks the pitch and what each note plays, the keys of every note, each region starting right after the one before, and the numbering; of players the numbers and all channels; of group entries the type, number and flags (KeyError just if the way of loading is above 1); of SSAR sequences, sound archives and music the numbers shown.", "quantifier": "all attribute values, all lists of any length, empty ones too, all bytes", "why_tests_cant": "Universal over all objects: that a printed text is never ambiguous or off by one region, channel or digit cannot be seen from printed examples.", "anchors": ["ndspy/code.py:Overlay.__str__", "ndspy/code.py:MainCodeFile.__str__", "ndspy/rom.py:NintendoDSRom.__str__", "ndspy/bmg.py:BMG.__str__", "ndspy/bmg.py:Message.__str__", "ndspy/texture.py:Texture.__str__", "ndspy/texture.py:Palette.__str__", "ndspy/soundWave.py:SWAV.__str__", "ndspy/soundWaveArchive.py:SWAR.__str__", "ndspy/soundStream.py:STRM.__str__", "ndspy/soundBank.py:NoteDefinition.__str__", "ndspy/soundBank.py:SBNK.__str__", "ndspy/soundSequencePlayer.py:SequencePlayer.__str__", "ndspy/soundStreamPlayer.py:StreamPlayer.__str__", "ndspy/soundGroup.py:GroupEntry.__str__", "ndspy/soundSequenceArchive.py:SSARSequence.__str__", "ndspy/soundArchive.py:SDAT.__str__", "ndspy/extras/music.py:SSEQMusic.__str__"]}
{"id": "C140", "title": "A ROM built from nothing has a standard header", "statement": "NintendoDSRom() can be saved. Whatever name, game code, code, overlays, banner, debug ROM, signature, file names and files it is given before, if it saves then the rest of the header is that of a standard ROM: entry points and addresses of both processors, card settings, the header size, the logo, whose checksum is the one consoles compare with and is written next to it, a correct checksum of the header, and zeros in all other places. Saved as it is, it has no name, the code ####, device capacity 9, and all parts and tables that the header points at are empty but for a name table with a root folder.", "quantifier": "all names, code, overlay tables, banners, file trees and files of any size for which saving succeeds, with and without an update of the device capacity", "why_tests_cant": "Universal over what the ROM is given: that no part overwrites a header field or a checksum for any size of code or files cannot be seen from saved examples.", "anchors": ["ndspy/rom.py:NintendoDSRom._initAsNew", "ndspy/rom.py:NintendoDSRom.save"]}
{"id": "C141", "title": "Filename tables as JSON", "statement": "tools/_common.py: for every filename table whose names are Unicode texts, fntToJson makes an ASCII text that json.loads reads as the object with the number of the first file, the names of the files and the pairs of names and folders at any depth, empty lists left out; different tables have different texts; jsonToFnt gives back the table.", "quantifier": "all folder trees of any depth and size, all names of any characters, all numbers", "why_tests_cant": "Universal over all names and trees: that every character is escaped so that it is read as itself, and that nesting and commas are right at every depth, cannot be seen from printed examples.", "anchors": ["tools/_common.py:FilenamesTableEncoder.default", "tools/_common.py:fntToJson", "tools/_common.py:convertDictToFilenamesTable", "tools/_common.py:jsonToFnt"]}
{"id": "C142", "title": "The programs in tools/ write what they say, and nothing else", "statement": "fnttool and lz10tool change no file when they raise an exception, and only the output file when they return. With an input file that holds a filename table (raw, in a ROM, or as JSON without folders), the file fnttool has written holds the same table, as JSON its text stands for it, and in a ROM nothing but the names is different from before; so names move from one ROM to another through a raw file. Putting names into a ROM that does not exist is refused. lz10tool, called twice without options on data that does not begin with 0x10, gives the data back in x.lz10.raw. Every use of a NARC by fnttool and every call of narctool fails and changes nothing, as ndspy.narc has no functions load and save.", "quantifier": "all files and paths, all ROMs and tables of any size, all options", "why_tests_cant": "Universal over the files and their contents: that no other file is touched on any way through the programs, and that names arrive whatever the tables are, cannot be sampled.", "anchors": ["tools/fnttool.py:main", "tools/lz10tool.py:main", "tools/narctool.py:main"]}
{"id": "C143", "title": "repr() of sequence archives, sound archives, ROMs, tracks and songs", "statement": "Evaluating the text repr() returns with the classes of ndspy in scope gives an object with the same attributes: for every SSAR and SSARSequence (parsed or not), SDAT, NintendoDSRom, SSEQMusic and Track. Where it does not, it is said exactly when: a parsed SSAR evaluates back if and only if its unknown value is 0 and its events and first events evaluate back, and even then cannot be saved if a sequence has a first event; an unparsed one with sequences, a sound archive, a ROM, a track and a song never do.", "quantifier": "all archives, ROMs, tracks and songs, all attribute values, all names and event lists", "why_tests_cant": "Universal over the objects: that texts are read as one expression whatever names and events are within, and that no object of a class evaluates back, cannot be seen from printed examples.", "anchors": ["ndspy/soundSequenceArchive.py:SSARSequence.__repr__", "ndspy/soundSequenceArchive.py:SSAR.__repr__", "ndspy/soundArchive.py:SDAT.__repr__", "ndspy/rom.py:NintendoDSRom.__repr__", "ndspy/extras/music.py:SSEQMusic.__repr__"]}
{"id": "C144", "title": "Minifying twice changes nothing", "statement": "Minifying a track or a song that has been minified gives the same events, bank and wave archives again. (False with several wave archives: the second time may raise IndexError. Proved when the definitions of the instruments switched to use one archive and the notes are 0 to 127.)", "quantifier": "all event lists, banks, instruments of all kinds and wave archives of any size", "why_tests_cant": "Universal over songs and banks: that the new numbers of instruments and waves are fixed points of the numbering for any set of used instruments, regions and waves cannot be sampled.", "anchors": ["ndspy/extras/music.py:minifyByEvents", "ndspy/extras/music.py:SSEQMusic.minify"]}
{"id": "C145", "title": "Moves in time one after the other are one move", "statement": "After a moveInTime call that has reached the time asked for, moving on from the returned index in the returned mode by a further time does to the list what one call from the first index by the sum of the times does; both end at the same index in the same mode, and the returned times differ by the time of the first call; whatever options the first call had, and also if the second does not reach its time. Moving again by the same time changes nothing: no rest is cut or appended twice.", "quantifier": "all event lists without repeated objects, all start indices, all times, modes and options", "why_tests_cant": "Universal over event lists and times: that cutting, appending and mode changes never shift a later position for any list cannot be seen from sampled lists.", "anchors": ["ndspy/extras/music.py:moveInTime"]}
{"id": "C146", "title": "Changing a track or a song more than once", "statement": "Of two initial values set for one control the second counts, and the track is the one that setting it alone gives; setting an initial value to what it is changes nothing; setting one where there was none, and then None, leaves the track as it was; the order in which two controls are set does not matter if one of them had a value. Without clamping, two additions to the velocities are one of the sum, two multiplications one by the product, and an addition can be undone; with clamping, two additions in one direction are one of the sum. Collapsing track numbers twice is collapsing them once.", "quantifier": "all event lists without repeated objects, all controls and values, all amounts, all songs", "why_tests_cant": "Universal over tracks and values: that no sequence of setter calls leaves a second event, touches another control or loses a change cannot be seen from sampled tracks.", "anchors": ["ndspy/extras/music.py:Track._handleInitialValueSet", "ndspy/extras/music.py:Track._handleInitialValueGet", "ndspy/extras/music.py:Track.addToNoteVelocities", "ndspy/extras/music.py:Track.multiplyNoteVelocitiesBy", "ndspy/extras/music.py:SSEQMusic.collapseTrackIDs"]}
{"id": "C147", "title": "Saving twice, and saving that raises", "statement": "Of the objects whose save() assigns attributes (Overlay, SWAV, STRM, NintendoDSRom, SSEQMusic), saving again with the same arguments returns the same bytes or raises the same exception, and changes nothing more; a ROM saved with the update of its device capacity can then be saved without it as well, to the same bytes; a song gives the same events in the same order again, with new objects only for the events that save() creates. At most these attributes change, also if save() raises: the size, and on success the compressed size and the flag, of an overlay; the time and the total length of a wave and the time of a stream, each only if its update was asked for; the device capacity of a ROM, only if its update was asked for; the events of the sequence of a song. So an exception does not mean that nothing has changed: a small ROM for which the update raises cannot be saved any more, not even without the update; the only empty track 0 leaves a sequence without events.", "quantifier": "all overlays, waves, streams, ROMs and songs, all arguments, calls that return and calls that raise", "why_tests_cant": "Universal over objects and arguments: that no attribute but the named ones is changed on any way through save(), and that a second call finds nothing more to change, cannot be seen from sampled objects.", "anchors": ["ndspy/code.py:Overlay.save", "ndspy/rom.py:NintendoDSRom.save", "ndspy/soundWave.py:SWAV.save", "ndspy/soundStream.py:STRM.save", "ndspy/extras/music.py:SSEQMusic.save"]}
{"id": "C148", "title": "A minified bank can be saved and loaded again", "statement": "If a bank saves to at most 64 KiB and minifying it succeeds, the minified bank saves too, to a file that is not longer; and loading that file gives the instruments that minifying left, so that the minified events sound the same with it. (Loading is false of the code where a regional instrument is switched to but none of its regions has a wave that is needed: it is left without regions, and its file raises struct.error or has a region made of the bytes of the next instrument. Proved to hold in exactly the other cases.)", "quantifier": "every bank (from a file or made by hand) whose instruments the format can represent, every list of events, every wave archives", "why_tests_cant": "Universal over banks, events and their interplay: that renumbering, dropping and sharing never make the data longer or a number too large, and which song silently corrupts its bank, cannot be seen from samples.", "anchors": ["ndspy/extras/music.py:minifyByEvents", "ndspy/soundBank.py:SBNK.save", "ndspy/soundBank.py:RegionalInstrument.fromData"]}
{"id": "C149", "title": "A song comes back from its file", "statement": "Saving a song (SSEQMusic.save), saving that sequence to an SSEQ file, loading and parsing the file (with anything behind it) and opening it as a song again gives the same tracks with the same events, in the order of the track numbers, where different event objects stay different and jumps go to the corresponding events. This holds for every song with at least one track, track numbers 0 to 15, no empty track and no event object twice, in-range events, no subroutines, conditions and from-variable events, in which nothing follows a jump or end of track within a track; a final end of track belongs to the file, not to the track. Such a song can be saved if it refers to its own events only and takes at most 2^24 bytes. (An event behind a jump comes back as raw data: witness.)", "quantifier": "every number of tracks, every list of events, every content and reference, every recursion limit that is at least the number of references", "why_tests_cant": "Composes four loops (writing the tracks, placing and writing events, following the events of the file, collecting the tracks) over unboundedly many songs; whether offsets, begin-track events and the split into tracks agree for all of them is not settled by samples.", "anchors": ["ndspy/extras/music.py:SSEQMusic.save", "ndspy/extras/music.py:SSEQMusic.__init__", "ndspy/soundSequence.py:SSEQ", "ndspy/soundSequence.py:readSequenceEvents", "ndspy/soundSequence.py:saveSequenceEvents"]}
{"id": "C150", "title": "A song of the sound archive of a game is changed, and nothing else", "statement": "Take a sequence of an SDAT, open it as a song, change the song in any way and save it, save the SDAT and write it over a file that is reached through any number of ROMs, NARCs and LZ10 layers. If no call raises, the file read from the new ROM loads as an SDAT whose sequence in that place, parsed and opened as a song, has the tracks and events of the changed song, under the same name and with the same attributes; all other sequences, empty slots, sequence archives, banks, wave archives, players, groups and streams come back as they were.", "quantifier": "all archives of objects that loading can tell apart, all positions, all songs as in C149, all ways through ROMs and archives, all recursion limits that suffice", "why_tests_cant": "Composes saving a song, placing its events, saving and loading a sound archive that shares files between items, and replacing a file inside archives; a clash between any two of these (a wrong offset, padding, sharing) would show for particular contents only.", "anchors": ["ndspy/extras/music.py:SSEQMusic.save", "ndspy/soundArchive.py:SDAT", "ndspy/soundSequence.py:SSEQ", "ndspy/rom.py:NintendoDSRom.setFileByName", "ndspy/narc.py:NARC.setFileByName"]}
{"id": "C151", "title": "Minified music in a sound archive sounds the same when loaded", "statement": "Minify sequences of an SDAT with minifyBySseqs, together with their bank and the wave archives it refers to, and save the SDAT. If it is loaded again, the sequence and the bank are in the same places under the same names, and the sequence, parsed, played with the loaded bank and the waves of the loaded wave archives, plays in every way of playing exactly the notes and sounds that it played before minifying, and no others.", "quantifier": "all sequences that are orderly (C126) and come back from their data (C58), all lists of sequences minified with them, all banks that use one wave archive, all sound archives with any other contents that loading can tell apart (C117), all recursion limits that suffice", "why_tests_cant": "Renumbered instruments, remaining waves, offsets of events, shared instrument data and file tables all change at once; that every way of playing (random values, several tracks, jumps) still finds the same wave at the end is about runs without bound.", "anchors": ["ndspy/extras/music.py:minifyBySseqs", "ndspy/soundArchive.py:SDAT", "ndspy/soundSequence.py:SSEQ.parse", "ndspy/soundBank.py:SBNK"]}
{"id": "C152", "title": "The printed form of a sequence archive shows where its sequences begin", "statement": "print of a parsed SSAR shows, for every event, its number, the event itself and the names of exactly those sequences that begin with it, in their order, and apart from that the names of the sequences without events, however long the names are and in however many lines they are broken. So two sequence archives that print alike save the same events, have sequences of the same names without events, and sequences of the same names that begin at the same places. An SSAR that is not parsed shows the names of all its sequences.", "quantifier": "all numbers of sequences, names of any length without comma, colon, bracket and line break, all lists of events whose destinations are among them", "why_tests_cant": "Names are broken at a fixed width, shared by the lines of several events and padded to a common width; that nothing runs together for any number and length of names cannot be settled by printing samples.", "anchors": ["ndspy/soundSequenceArchive.py:SSAR.__str__", "ndspy/soundSequence.py:printSequenceEventList"]}
{"id": "C153", "title": "The tracks of a sequence that is opened as a song", "statement": "SSEQMusic(sseq, sbnk, swars) of a parsed sequence: without events it raises IndexError. If the first event does not define tracks, there is one track, number 0, with all events. Otherwise, with the events that begin tracks right behind the first: if nothing follows them it raises IndexError; if one of them names a first event that is not in the sequence it raises ValueError; else there is exactly one track for every number that is begun, and track 0 if it is defined, and a track has the events from its first event (for track 0: from the first behind the beginnings) up to, not including, the next event with which a track begins; of several beginnings of one track the last counts. A final end of track is left out. If track 0 is defined and not begun, no track is begun twice and no event occurs twice, every event behind the beginnings, except for ends of tracks, is in a track.", "quantifier": "all lists of events, of any length, with any number of tracks in any order", "why_tests_cant": "Where a track ends depends on where all the others begin; that nothing is lost and nothing is taken twice is about every arrangement of the tracks in the list.", "anchors": ["ndspy/extras/music.py:SSEQMusic.__init__", "ndspy/extras/music.py:Track.__init__"]}
{"id": "C154", "title": "The sound programs in tools: the round-trip test, the scales and the soundfont export", "statement": "tools/testSDAT.py runs to its end if and only if there is no file named out, no folder is named like an archive and every .sdat file in the folder can be loaded and saved. It then returns True if and only if every archive is, byte for byte, the same after loading and saving, apart from the one with the name that is expected to fail; it prints a line for each archive, in the order of the names, with the name, dots up to column 70 and 'good' if and only if the archive is reproduced; the folder out contains exactly one file for each archive, with the resaved data, and nothing from before. The archives are never changed, also if it raises; if it raises, then at the first archive that does not load and save, with exactly the ones before it dealt with. Running it again gives the same. Archives that were saved, loaded, saved, loaded and saved by this library pass. makeScaleSSEQ(bank, instrument) of tools/instrumentExamples.py is a sequence that switches to the instrument and plays all notes from 0 to 127, for 6400 ticks; saved and loaded it has the same events. prepareSDAT prints the number of instrument slots of the banks that use the first wave archive, raises IndexError without wave archives and AttributeError with an empty bank slot. tools/soundfontExport.py writes an empty file if its two input files can be loaded, and changes nothing else.", "quantifier": "all folders, with any number of archives of any content; all banks and instruments; all file systems", "why_tests_cant": "That a test program reports success exactly if all archives are reproduced is about every folder; a wrong test program is noticed by no test.", "anchors": ["tools/testSDAT.py:testSDAT", "tools/testSDAT.py:main", "tools/instrumentExamples.py:makeScaleSSEQ", "tools/instrumentExamples.py:prepareSDAT", "tools/soundfontExport.py:convertToSF2", "tools/soundfontExport.py:main"]}
{"id": "C155", "title": "Changing the values of events of a parsed sequence changes nothing else", "statement": "If an SSEQ is parsed, some of its events are replaced by others of the same length that a file can hold (such as all notes by notes with middle C, as on the first page of the documentation; events that steer playback stay), and the parsed sequence could have been saved as it was with the size that it had, then it can be saved, to a file of the same size, and this file, loaded and parsed, has exactly the replaced events, at the same offsets, and all other events and raw data as they were. The same holds for a sequence archive all of whose sequences have a first event: the sequences still begin at the same events. Without a replacement: a sequence that was parsed and saved is, loaded and parsed again, the same, also if the saved file differs from the one loaded at first. A note whose pitch is not from 0 to 127 makes saving raise ValueError.", "quantifier": "all sequences and sequence archives with data of any length and structure (loops, calls, tracks, unreachable data); all replacements; all pitches", "why_tests_cant": "That a change of values moves no event and redirects no jump depends on the structure of every sequence; tests cover some songs.", "anchors": ["ndspy/soundSequence.py:SSEQ.parse", "ndspy/soundSequence.py:SSEQ.save", "ndspy/soundSequence.py:readSequenceEvents", "ndspy/soundSequence.py:saveSequenceEvents", "ndspy/soundSequence.py:NoteSequenceEvent", "ndspy/soundSequenceArchive.py:SSAR.parse", "ndspy/soundSequenceArchive.py:SSAR.save"]}
{"id": "C156", "title": "The programs of the documentation for the files of a ROM do what they are said to do", "statement": "The program of the first page that searches a ROM for files that begin with some bytes prints the names of exactly those files, in the order of their IDs, none twice, and each printed path leads to such a file; if such a file has no name, it stops there with KeyError, having printed the names before it, while the variant with filenameOf prints None and goes on. Extracting a file by name writes exactly the data of the file. Putting a file into a ROM by name gives a ROM file that, when loaded, has the new data under that name, what it had under every other name, and all other attributes (but for those that C39 to C41 and C79 are about); rom.files[rom.filenames[name]] does the same as the functions with names wherever there is such a file. Extracting a file and putting it back is the same as saving the ROM again. Editing an archive, in a file of its own or in a ROM, with any number of files gives an archive in which every file is the last that was put there or what it was. If one of the programs fails, no file on disk has changed, and if not, only the target.", "quantifier": "all ROMs and archives of any size and with any tree of names; all names, bytes to search for and new data; any number of changes; all contents of the disk, also when files are named twice", "why_tests_cant": "The programs go through lookups by name, saving and loading of two formats and the disk; the tests check these one by one on a few files.", "anchors": ["docs/source/index.rst", "docs/source/api/rom.rst", "docs/source/api/narc.rst", "docs/source/tutorials/rom-editing.rst", "docs/source/tutorials/narc-editing.rst", "ndspy/fnt.py:Folder.__getitem__", "ndspy/fnt.py:Folder.filenameOf", "ndspy/rom.py:NintendoDSRom.getFileByName", "ndspy/rom.py:NintendoDSRom.setFileByName", "ndspy/rom.py:NintendoDSRom.fromFile", "ndspy/rom.py:NintendoDSRom.saveToFile", "ndspy/narc.py:NARC.fromFile", "ndspy/narc.py:NARC.saveToFile"]}
{"id": "C157", "title": "Numbering the files of a new filename table as documented gives every file its own name", "statement": "If no two files of a folder tree have the same ID, then different paths lead to different IDs, and Folder.filenameOf() of the ID that Folder.idOf() finds for a path is this path, without slashes around it. The IDs for which filenameOf() finds a name are exactly those of the files of the tree. If firstID of each folder is set as documented, to a start value plus the number of files that come before it (a folder's own files first, then its subfolders in turn), the files have consecutive IDs beginning with the start value, so the k-th path leads to the k-th ID and back, and no other ID has a name. A NARC made with fromFilesAndNames() from a list of files and a tree with as many well-formed names, numbered from 0, has the k-th file under the k-th path, nothing under any other path, and is the same after saving and loading; in a ROM whose names are numbered from n the k-th path leads to the file n + k.", "quantifier": "all folder trees of any depth and width, all paths with any slashes around them, all start values, all lists of files", "why_tests_cant": "It is about all shapes of trees, and about the numbers of all files of a tree at once; tests have a few fixed trees with numbers written down.", "anchors": ["docs/source/api/fnt.rst:file-names-and-file-ids", "docs/source/api/narc.rst", "ndspy/fnt.py:Folder.idOf", "ndspy/fnt.py:Folder.filenameOf", "ndspy/narc.py:NARC.fromFilesAndNames", "ndspy/narc.py:NARC.getFileByName", "ndspy/rom.py:NintendoDSRom.getFileByName"]}
{"id": "C158", "title": "Changed messages of a BMG are in the ROM, and nothing else has changed", "statement": "After setting stringParts of any number of messages of a BMG that was loaded from a file or from a ROM, saving it, and putting it into a ROM by name that is saved to a file (the documented programs), the ROM file loads as a ROM in which the file of that name loads as a BMG with the new texts and escapes, in order, in the messages that were changed (the last one if a message was changed more than once; indices may count from the end), the same info values, and all other messages, scripts, labels, instructions, the ID, the encoding and the rest as they were; all other files of the ROM and on disk are as they were. If something fails, no file on disk has changed. New text in a null message is lost. Text with a null or a substitute character is refused when saving.", "quantifier": "all BMG files that can be loaded, all ROMs, any number of changes with any texts and escapes in all four encodings, all contents of the disk", "why_tests_cant": "It needs all texts and lists of changes, and goes through reading and writing of two formats and the disk.", "anchors": ["docs/source/api/bmg.rst", "ndspy/bmg.py:BMG.fromFile", "ndspy/bmg.py:BMG.save", "ndspy/bmg.py:Message.save", "ndspy/rom.py:NintendoDSRom.setFileByName", "ndspy/rom.py:NintendoDSRom.saveToFile"]}
{"id": "C159", "title": "Changing the header of a ROM changes only the documented bytes", "statement": "If two ROM objects have the same parts outside the header (program code, overlay tables, banner, debug ROM, names, files, padding, signature), their saved images have the same length and are the same from 0x200 on; in the header, every byte depends only on the attribute that is documented at its offset, apart from the header checksum (0x15E) and, for the logo, the logo checksum (0x15C). If one of them can be saved, so can the other exactly when its header attributes have their lengths and fit their fields. Loading both images gives ROM objects with the same parts outside the header and the header attributes that were set. The name can be set to any bytes: the image changes only in its first 12 bytes and the header checksum, and is loaded with the first 12 bytes of the name, without zeros at the end, and with everything else as without the change.", "quantifier": "all ROM objects that can be saved, all values of all header attributes, names of any length", "why_tests_cant": "It compares all images of all ROMs that differ in any subset of the header.", "anchors": ["docs/source/api/rom.rst", "ndspy/rom.py:NintendoDSRom.save", "ndspy/rom.py:NintendoDSRom.__init__"]}
{"id": "C160", "title": "Pixels and colours drawn in the graphics of a game are there, and nothing else has changed", "statement": "After getting a graphics file or a palette file out of nested archives, LZ10 compression and ROMs, loading its tiles or colours, setting any number of pixels (tiles[k].pixels[i] = v) or colours (palette[i] = ...), saving it and putting it back in the same way, the file in that place loads with the same number of tiles or colours, each of the pixels or colours that were set has the last value set for it (indices may count from the end; of four-bit pixels the low four bits, of colours the low five bits of the components and the low bit of alpha), all others are as they were, and every other file, at any depth, is as it was. Bytes after the last complete tile or colour are lost. A tile, pixel or colour that is not there is an IndexError; drawing in four-bit graphics and in palettes works in all other cases, and in eight-bit graphics if and only if no pixel ends up with a value of 256 or more, which is a ValueError.", "quantifier": "all files, all nestings of NARCs, ROMs and LZ10 compression of any depth, both image formats, any number of changes with any indices and values", "why_tests_cant": "It needs all nestings and all lists of changes, and goes through reading and writing of up to four formats at once.", "anchors": ["docs/source/tutorials/narc-editing.rst", "ndspy/graphics2D.py:loadImageTiles", "ndspy/graphics2D.py:saveImageTiles", "ndspy/graphics2D.py:ImageTile.save", "ndspy/color.py:loadPalette", "ndspy/color.py:savePalette", "ndspy/lz10.py:compress", "ndspy/narc.py:NARC.setFileByName", "ndspy/rom.py:NintendoDSRom.setFileByName"]}
{"id": "C161", "title": "Different files can be replaced in any order, and the last one given for a file counts", "statement": "After replacing any number of files of a ROM or a NARC with setFileByName or by assigning to files[i], in any mixture, each file that was replaced is the last one that was given for it, whichever way it was named (indices may count from the end), and everything else in the object is as it was. It works if and only if each name and index is that of a file. Two programs that give the same last data for each file make equal objects, which save to the same bytes; in particular, replacements of different files can be made in any order.", "quantifier": "all ROMs and NARCs, any number of replacements of any files by name or by index, and all orders of them", "why_tests_cant": "It is about all lists of replacements and all their orders.", "anchors": ["ndspy/rom.py:NintendoDSRom.setFileByName", "ndspy/narc.py:NARC.setFileByName", "ndspy/fnt.py:Folder.idOf", "docs/source/api/rom.rst", "docs/source/api/narc.rst"]}
{"id": "C162", "title": "Files added to an archive or a ROM are there by name, and the others still", "statement": "After appending a new name to the files of a folder of a loaded NARC or ROM (at any depth) and the data to its files, every other path has the file it had, and if the folder is the one whose files have the last IDs, the new path has the new data; otherwise it has the old file with the ID after the last one of the folder. After appending a new folder with different names and firstID=len(files) to any folder, and the data to the files, each new path has its data and every other path has the file it had. Saving the result and loading it gives these names and files.", "quantifier": "all NARCs and ROMs that were loaded from files, all folders of them at any depth, all new names and data, any number of files in a new folder, all spellings of paths with additional slashes", "why_tests_cant": "It is about all folder trees and all paths, before and after a change and through saving and loading.", "anchors": ["docs/source/api/fnt.rst", "ndspy/fnt.py:Folder.idOf", "ndspy/fnt.py:Folder.subfolder", "ndspy/fnt.py:save", "ndspy/fnt.py:load", "ndspy/narc.py:NARC.getFileByName", "ndspy/narc.py:NARC.save", "ndspy/rom.py:NintendoDSRom.getFileByName", "ndspy/rom.py:NintendoDSRom.save"]}
{"id": "C163", "title": "Files in different places of nested archives can be replaced in any order", "statement": "If two ways through archives and compressed files in them lead to different files, replacing the two files (loading each layer, setting the file by name, saving each layer) gives the same bytes in either order. If the outermost layer is a ROM, the images hold the same files under the same names in either order.", "quantifier": "all NARCs and LZ10 data nested at any depth, in an archive or a ROM, all ways that part somewhere, all new data, whenever the four replacements succeed", "why_tests_cant": "It is about two orders of changes in all nested files at once.", "anchors": ["docs/source/tutorials/narc-editing.rst", "ndspy/narc.py:NARC.setFileByName", "ndspy/narc.py:NARC.save", "ndspy/lz10.py:compress", "ndspy/rom.py:NintendoDSRom.setFileByName", "ndspy/rom.py:NintendoDSRom.save"]}
{"id": "C164", "title": "Waves, instruments and streams of the sound archive of a game are changed, and nothing else", "statement": "If the waves of a wave archive, the instruments of a bank or a stream of a sound archive are changed in any way, and the archive is saved and written over the file it came from, through any number of archives and ROMs, then the sound archive that is loaded from the new ROM has exactly the new waves, instruments or stream there, under the same name and with the same attributes. All other items come back as they were, also those that shared a file with the changed one.", "quantifier": "all sound archives whose names have no NUL and whose items have the known types, all items, all lists of waves and instruments that can be stored, all nested ROMs and archives, whenever saving succeeds", "why_tests_cant": "It is about all sound archives and all changes, through the sharing of files, saving, nesting and loading.", "anchors": ["ndspy/soundArchive.py:SDAT.save", "ndspy/soundArchive.py:SDAT.__init__", "ndspy/soundWaveArchive.py:SWAR.save", "ndspy/soundBank.py:SBNK.save", "ndspy/soundStream.py:STRM.save", "ndspy/rom.py:NintendoDSRom.setFileByName"]}
{"id": "C165", "title": "A renamed file or folder is found under its new name only, and all others as before", "statement": "After a program sets the name of a file or of a folder in the filename table of a loaded NARC or ROM (at any depth) to a name that the folder does not have yet, the new path, or every path through the new folder name, has the file that the old one had, the old path raises ValueError, and every other path has the file it had. No file changes. Saving the result and loading it gives these names and files.", "quantifier": "all NARCs and ROMs that were loaded from files, all folders of them at any depth, all files and folders whose name is there once, all new names, all spellings of paths with additional slashes", "why_tests_cant": "It is about all folder trees and all paths, before and after a change and through saving and loading.", "anchors": ["docs/source/api/fnt.rst", "ndspy/fnt.py:Folder.idOf", "ndspy/fnt.py:save", "ndspy/fnt.py:load", "ndspy/narc.py:NARC.getFileByName", "ndspy/narc.py:NARC.save", "ndspy/rom.py:NintendoDSRom.getFileByName", "ndspy/rom.py:NintendoDSRom.save"]}
{"id": "C166", "title": "Removing a name or a folder from the filename table affects only that folder", "statement": "After a program deletes the name of a file in a folder (at any depth) of a loaded NARC or ROM, that path raises ValueError, the names in front of it in the folder have the files they had, each name behind it has the file that the name in front of that one had, and every other path has the file it had; so removing the last name of a folder affects no other name. After deleting a folder, every path through it raises ValueError and every other path has the file it had. No file is removed. Saving the result and loading it gives these names and files.", "quantifier": "all NARCs and ROMs that were loaded from files, all folders of them at any depth with different names, all positions, all spellings of paths with additional slashes", "why_tests_cant": "It is about all folder trees and all paths, before and after a change and through saving and loading.", "anchors": ["docs/source/api/fnt.rst", "ndspy/fnt.py:Folder.idOf", "ndspy/fnt.py:save", "ndspy/fnt.py:load", "ndspy/narc.py:NARC.getFileByName", "ndspy/narc.py:NARC.save", "ndspy/rom.py:NintendoDSRom.getFileByName", "ndspy/rom.py:NintendoDSRom.save"]}
{"id": "C167", "title": "Patching code at a RAM address", "statement": "A program loads the ARM9 code of a ROM, overwrites bytes in one of its sections (without changing its length, and not in the four settings words or the pointer to them), saves the code, compressed or not, puts it into the ROM and saves the ROM. In the code loaded from the image, the sections have the addresses, lengths and BSS sizes they had, the new bytes stand at the RAM addresses where they were written, and at every other RAM address except those of the four settings words there is what was there before. The ARM7 code, the overlays and the files of the ROM are as before.", "quantifier": "all main code files that have code settings in the first section and a pointer to them and aligned sections, and whose saved form does not look compressed, or which is saved compressed and becomes shorter and has its settings in the part that is not compressed; all sections and offsets, all bytes that are written, all ROMs", "why_tests_cant": "It is about all patches to all code files, and about all addresses of the result, through two file formats.", "anchors": ["docs/source/api/code.rst", "ndspy/code.py:MainCodeFile.__init__", "ndspy/code.py:MainCodeFile.save", "ndspy/rom.py:NintendoDSRom.loadArm9", "ndspy/rom.py:NintendoDSRom.save"]}
{"id": "C168", "title": "Moved touch areas and images of a screen layout are in the game, and nothing else has changed", "statement": "After getting a BNBL or BNCL file out of nested archives, LZ10 compression and ROMs, changing any number of its touch areas or image positions (setting attributes or replacing objects, indices may count from the end), saving it and putting it back in the same way, the file in that place loads with as many touch areas or image positions; each is what the changes of it, one after another, make of it, those that were not changed are as they were, and so are the unknown value and every other file, at any depth. This is if coordinates are from 0 to 4095 and alignments are one of the nine combinations; others are accepted and cut off. An area or image that is not there is an IndexError; otherwise saving works if and only if all widths and heights in the end are from 0 to 255, or all image IDs from 0 to 2^32 - 1.", "quantifier": "all layout files, all nestings of NARCs, ROMs and LZ10 compression of any depth, any number of changes of any kind", "why_tests_cant": "It needs all nestings and all lists of changes, and goes through reading and writing of up to four formats at once.", "anchors": ["ndspy/bnbl.py:BNBL.save", "ndspy/bnbl.py:BNBLTouchArea.save", "ndspy/bncl.py:BNCL.save", "ndspy/bncl.py:BNCLImagePosition.save", "ndspy/narc.py:NARC.setFileByName", "ndspy/rom.py:NintendoDSRom.setFileByName"]}
{"id": "C169", "title": "Repainted textures and palettes of a game are there, and nothing else has changed", "statement": "After getting an NSBTX file out of nested archives, LZ10 compression and ROMs, replacing the pixels of any number of its textures with as many others and any number of colours of its palettes, saving it and putting it back in the same way, the file in that place loads with the same textures and palettes in the same order, with the names, sizes, formats and unknown values they had; each of the changed textures and palettes has the last pixels and colours given (indices may count from the end), all others are as they were, and so is every other file, at any depth. The file must be whole: each texture has as much data as its size and format need, no two palettes have the same name and numbers, and no palette without colours is in front of one with colours. Saving works if the file could be saved as it was and the textures and colours that are changed are there, and the saved file is as long. Other changes of textures and palettes that keep sizes, formats and amounts of data come back in the same way.", "quantifier": "all texture files that are whole, all nestings of NARCs, ROMs and LZ10 compression of any depth, any number of changes with any pixels, and colours in range", "why_tests_cant": "It needs all nestings and all lists of changes, and goes through reading and writing of up to four formats at once.", "anchors": ["ndspy/texture.py:NSBTX.save", "ndspy/texture.py:Texture", "ndspy/texture.py:Palette", "ndspy/narc.py:NARC.setFileByName", "ndspy/rom.py:NintendoDSRom.setFileByName"]}

# Formal model of ndspy in Lean 4

## What this is

`lean/Verif` holds a shallow, executable model of the ndspy library (`/repo/ndspy`, Python) and
machine-checked proofs of the properties in `properties.jsonl`.  The model follows the Python code
function by function and branch by branch.  Every definition cites the file and lines it models.

## Trusted base

* Lean 4.33.0's kernel.
* The axioms `propext`, `Classical.choice`, `Quot.sound` at most.  No axiom of our own, no `sorry`,
  no `native_decide`, no `bv_decide`.
* That the model says what the Python says.  This is checked by reading only; the code is not run.

## How Python is modelled

* `bytes`/`bytearray` are `List UInt8`.  A `bytearray` that is mutated becomes a sequence of values.
* `int` is `Nat` where the code can only produce a natural number, and `Int` where negative values
  matter (signed fields, differences which `struct` may refuse).
* `str` is a list of code points (`List Nat`).
* Exceptions are values of `Except PyErr`.  The constructor says which exception class is raised; the
  message is not modelled.
* `struct.pack`/`pack_into`/`unpack_from` are modelled field by field with their range and buffer checks.
* Slices clamp as in Python.  Indexing raises `IndexError` as in Python.
* Objects with identity become list positions where identity matters (jump targets).
* Loops that Python does not bound carry fuel, and a theorem says when the fuel suffices.

The recursion limit is modelled where the depth depends on data (`fnt`, `readSequenceEvents`): a parameter says how
much is left.  The device capacity `math.ceil(math.log2(n))` is modelled exactly, without the rounding of floats.  The times that `SWAV.save` and `STRM.save` compute with floats are modelled with rationals rounded to 53 binary digits (`Model/Float.lean`), without the limits of the exponent, which sample rates below 2^1000 do not reach.

Python's Shift-JIS codec is a parameter of the BMG model; theorems say what they need of it (`Lawful`, `Strict`).

Files: `Model/Files.lean` has a file system that gives each path its content and says which paths can be written; two paths
are two files, opening may raise `OSError`, reading and writing an open file does not.  Arguments of command line tools are
modelled as `argparse` understands them.

Not modelled: images of PIL beyond the size and the bytes they are made from, the part of `prepareSDAT` in
`tools/instrumentExamples.py` behind its `return` and the program `midiAndSF2ToMP3` starts, Python's memory limits, deprecated aliases.

## Layout

* `Verif/Base/*` – bytes, struct primitives, exceptions, general lemmas.
* `Verif/Model/*` – the model, one file per Python module.
* `Verif/Spec/*` – small specifications that do not use the model's helpers.
* `Verif/Proofs/*` – helper lemmas.
* `Verif/Props/*` – the property theorems, each beside an `example` that meets its hypotheses.

## Plan per property

| Id | What is modelled | How it is proved |
|----|------------------|------------------|
| C01 | `_lzCommon.compress`, `lz10.compress/decompress` | compressor output is a token stream (invariant of the main loop); the decoder executes a token stream; refinement to an abstract LZ77 semantics |
| C02 | same | case split on the length |
| C03 | `lz10.decompress` on all inputs | decoder loop is structurally recursive on the remaining length; result length invariant |
| C04 | `compressionSearch` | monotonicity of "a match of length k exists"; binary search invariant |
| C05 | `codeCompression` | token stream read backwards; footer arithmetic |
| C06 | same | false; witnesses by evaluation in the kernel; exact characterisation of when it holds |
| C07 | `_detectAppendedData`, `decompress` | false for 5–7 byte inputs; partial theorem otherwise |
| C08, C09 | `fnt.save/load` | induction over the tree, breadth of table offsets |
| C10, C11 | `Folder` lookups | induction over the tree |
| C12, C13, C14 | `narc` | segment reasoning on the produced bytes |
| C15, C16 | overlay table, overlay flags | record by record |
| C17, C18 | `MainCodeFile` | segment reasoning; C18 is false |
| C54 | `Overlay.save`, `Overlay.__init__` | evaluation, C05 |
| C55 | `MainCodeFile.save(compress=True)` | patching commutes with decompression, then as C17 |
| C19 | `crc16` | the step is injective on 16-bit states |
| C20, C21 | `color` | complete finite tables lifted to all values; lists by induction |
| C22, C23, C24 | alignment words, BNBL, BNCL | arithmetic, induction over lists |
| C25–C29 | sequence events, SSEQ | per event kind; lists by induction |
| C30–C35 | SWAV, SWAR, STRM, groups, SBNK | segment reasoning and induction |
| C62–C64 | `SBNK` | fuel bounded by the unconsumed bytes; closed form of the shared data (distinct pieces in order of first use) |
| C36, C84–C90 | `soundArchive` over items as their `save()` returns them; merge IDs are integers | closed form of the saved archive; segment reasoning; the table of files is the list of first uses; re-saving by comparing the settings that loading finds out; a separate reader of the format for everything that any data loads to |
| C37–C39, C77–C83 | `rom` without `loadArm9` and the like, which only pass attributes on to `code` | segment reasoning, invariant of the file placement loop; closed form of the image; re-saving by reconstructing the order from the offsets |
| C40–C42, C65, C66 | `bmg`; the codecs UTF-16, UTF-8 and Windows-1252 | text codecs are records with stated laws, proved for the three modelled codecs; segment reasoning; C41, C42 are false |
| C43, C44, C67 | `graphics2D` without PIL | arithmetic, list lemmas; C44 is false for tall grids |
| C45–C47 | texture words, info blocks, TEX0, NSBTX | arithmetic, segment reasoning; C46 is an exact characterisation |
| C75, C76 | `renderTextureData`, `Texture.render` | the loops write each position once; refinement to a pixel function; C76 is false |
| C48, C49 | named lists, short byte representation | induction; C49 is false for the quote byte |
| C50, C51, C69–C74 | `extras/music`; event objects carry identities | refinement to a positional specification; times by sums of lengths |
| C68 | `minifyByEvents` | the notes played and what each sounds like, before and after |
| C52, C60, C61 | SSAR | segment reasoning; C57 and C58 for the events |
| C56–C58 | `readSequenceEvents`, `saveSequenceEvents` | fuel bounded by unvisited offsets; invariant of the parser's state; refinement to a regrouping relation |
| C59 | `_detectAppendedData` | induction over the candidates |
| C91–C94 | `model` (NSBMD): display lists, blocks; the model block is kept as bytes | group by group against a table of the hardware's commands; fold over the blocks; segment reasoning with C47 |
| C95 | `noteName` | closed form of the loops, then a reader of Helmholtz notation |
| C96–C104 | what any bytes load to, and headers of saved files, for most formats | `Spec/Reader.lean` reads numbers as sums of bytes; each loader is equivalent to a description of the file with it; for saved files by the round trip theorems or segment reasoning |
| C105 | order of the data in banks | stable sort lemma; the order of saving as three sorted groups with the hidden lists between; offsets as lengths of prefixes |
| C106 | the events and headers of sequence files on any bytes | `Spec/FormatSseq.lean` says which bytes an event is; the decoder is equivalent to it |
| C107 | `readSequenceEvents` | playback as a transition system with a return stack; one induction over the parser with invariants on fates (a place with fate "return" can return; a subroutine without jumps is never found to loop, since it does not come back to itself) |
| C108 | BMG files on any bytes | `Spec/FormatBmg.lean` says what is where in a BMG file, messages as an inductive relation; the loader is equivalent to it |
| C109 | colours, palettes, tiles and tilemaps on any bytes | bits as quotients and remainders; C20, C21 and C43 for the rest |
| C110 | decompression of any data | `Spec/LzAny.lean` has a decoder that eats a stream byte by byte; the loops over positions, masks and buffers compute the same |
| C111 | main code files on any bytes | `Spec/FormatMainCode.lean` says where settings and sections are; the constructor is equivalent to it |
| C112 | ROM images on any bytes | `Spec/FormatRom.lean` says what each byte of the header means and where the parts are; `load` is equivalent to it, and what `save` writes meets it |
| C113 | `crc16` | `Spec/Crc.lean` defines division of polynomials over two elements; the register is the mirrored remainder after each byte |
| C114 | `SSEQ` and `SSAR` objects over any run of operations | `Model/SequenceObject.lean` has all attributes and what an operation leaves behind when it raises; `Spec/SequenceObject.lean` says what was last assigned; induction over the run |
| C115 | overlays of a ROM, edited and reloaded | `Model/RomCode.lean`; combines C15, C54 and C39 |
| C116 | code and files of a ROM, reloaded | combines C39, C83, C17 and C55 |
| C117 | objects of a sound archive | each kind of object: save, append padding, load; then item by item through C84 |
| C118 | any number of rounds | the relations of C117 are transitive and keep what loading needs |
| C119 | bytes of a loaded archive saved again | items of the loaded archive are those before with file numbers as merge IDs; layout as in C89 without padded files |
| C120–C122 | files and command line tools | `Model/Files.lean`; a call is described by which bytes it asks to write where, then induction over programs; with the round trips of each format |
| C123 | `MainCodeFile.fromCompressed` | compared with the constructor; a witness compressed twice |
| C124 | times computed with floats | rationals rounded to 53 digits, shown to be IEEE rounding; the relative errors are smaller than the distance to the next integer |
| C125 | what compressing writes | `Spec/LzGreedy.lean` has the items of a stream, the rule that picks them and the cut; the loops keep an invariant about all points passed and their savings |
| C126 | minified music when played | `Spec/MusicPlay.lean` has the runs of a sequence; minifying renames instruments, which is a bisimulation; the sounds by C68's lemma about listed notes |
| C127 | repr evaluates back | `Spec/PyExpr.lean` is a reader of Python expressions, `Model/Constructors.lean` evaluates calls of constructors; texts compose by a lemma about items between brackets, and reading is monotone in the fuel, so that a text has at most one value |
| C128 | printed lists of files | `Spec/Listing.lean` reads lines with IDs, indentation and names; the lines of a folder are read as its entries whatever comes behind (`ReadsAs`), by induction over the tree; lists of entries determine the tree since a folder's entries have longer paths than what follows |
| C129 | printed sequences | `Spec/EventText.lean` splits the text into lines and words and reads each event; `Model/EventText.lean` prints them as soundSequence.py does. Every kind of event is read back (`read_event`), texts hold no line breaks (`nl_event`), so the lines are the events; replacing identities by places in the list commutes with saving (`save_moved`) |
| C130 | looping songs | `songLoop` keeps the tracks also when it raises (`loopLeft`); `Loopable` and `Repeats` (`Spec/Music.lean`) say when a track can be looped and what a looped track is |
| C131 | objects made from parts | `Model/Build.lean` has the `from…` methods with their defaults; the theorems name each part, and follow from the round trips |
| C132 | printed touch areas and image positions | `Spec/BnText.lean` has a reader that knows only the text, and says in terms of pixels what a cell of the drawing shows; the drawing is found in the printed lines |
| C133 | files of another kind, and damaged ones | `Spec/LoadErrors.lean` has the signatures, the versions and, for each kind, the exceptions that its loader may raise; each is shown to be the only ones and each to occur. `outOfFuel` in the list for BMGs stands for a loop that does not end (C42). Which exception occurs is a property of the models' branches, so this row leans on their mirroring the order of checks in the code |
| C134 | what was loaded survives saving | the loaders and `save()`s of the thirteen kinds as in C133; equality of whole objects, from any file that loads.  `save` hands on what `SSAR.save()` and `SBNK.save()` return besides the file. Full for eight kinds; for NSBTX, NSBMD and SBNK under conditions on what was loaded; BMG and SDAT are in C65, C89, C119 |
| C135 | images of tiles, tilemaps and textures | `Model/Image.lean` models `colorsToImage` and its callers; an image is what is handed to `PIL.Image.frombytes`. `Spec/Image.lean` says where the bytes of a pixel are and what each place of a tile, an entry or a grid looks like; making the image is equivalent to it, failures included. For whole rows of tiles only (C67); with a `Palette` textures give no image (C76) |
| C136 | repr of sound objects and textures | `Model/ReprSound.lean`; the same reader as C127. Texts of which one part is no expression are shown to be none at all, so that each condition is exact (if and only if) |
| C137 | what saving a song writes | The relations `Written`, `Begun` and `Contents` in `Props/MusicTracks.lean` say what is written of a track, of the beginnings and of all tracks; new events have identities that no event of the song has |
| C138 | nested files | `Spec/Nested.lean` says what a program calls to read and to replace a file inside files (`read`, `write`), and when two ways part (`Apart`) |
| C139 | printed summaries | `Spec/Summary.lean` has a reader for each printed text; the theorems say that it gives the attributes shown |
| C140 | new ROMs | C112 says where each attribute stands in a saved image; here the attributes of a new ROM are put in, and the checksum of its logo is computed |
| C141 | tables as JSON | `Model/Json.lean` has what Python's `json` prints for a table and a reader of JSON (integers, texts, lists, objects); induction over the tree with a reader that stops at commas and ends of lines |
| C142 | programs in `tools/` | `Model/Tools.lean` over the file system of C120; with the round trips of tables, ROMs and LZ10 |
| C143 | repr of sequence archives, sound archives, ROMs, tracks and songs | `Model/ReprArchive.lean`; the same reader as C127 and C136. That an evaluated archive cannot be saved is proved by running the model of `save` on it: the first event is a new object, which the table of places does not have |
| C144 | minifying twice | `Model/Music.lean`, `Model/MusicSong.lean`; the second call is the same function on what the first returned. The statement says nothing about identities: the dummy definitions shared after the first call are not changed by the second |
| C145 | moves in time one after the other | `Model/Music.lean`; equal results of two calls of `moveInTime` on the list that the first call has left |
| C146 | changing a track or a song more than once | `Model/Music.lean`; equations between runs of the setters, with no specification but the lists they leave |
| C147 | saving twice, and saving that raises | `Model/SaveState.lean` (and `Model/Float.lean` for waves and streams): `save()` as a function that returns result or exception together with the object left behind; proved to be the functions used elsewhere where they return |
| C148 | a minified bank can be saved and loaded again (partial) | joins `Model/Music.lean` (`minify`) with `Model/SoundBank.lean` (`save`, `load`) |
| C149 | a song comes back from its file | joins `Model/Music.lean` (`musicSave`, `musicInit`) with `Model/SoundSequence.lean` (`SSEQ.save`, `load`, `parse`); words of the claim in `Spec/SongFile.lean` |
| C150 | a song of the sound archive of a game is changed, and nothing else | joins C149, C117 and C138 |
| C151 | minified music in a sound archive sounds the same when loaded | joins C126, C58 and C117 |
| C152 | the printed form of a sequence archive shows where its sequences begin | reader of the printed form, defined without the printer; names with commas are a counterexample |
| C153 | the tracks of a sequence that is opened as a song | every sequence, also those that saving does not produce (C71 has those) |
| C154 | the sound programs in `tools/` | the round-trip test says what it should; the soundfont is empty |
| C155 | changing values of parsed events | nothing else changes; false with from-variable events |
| C156 | programs of the documentation for the files of a ROM | searching, extracting, replacing, editing an archive, with files on disk |
| C157 | numbering the files of a new table | the tables of docs/source/api/fnt.rst and narc.rst, for all trees |
| C158 | changing messages | `BMG` objects, the programs of docs/source/api/bmg.rst with files on disk |
| C159 | changing the header | `NintendoDSRom` header attributes, `save`, `__init__` |
| C160 | drawing in graphics and palettes in nested files | `Graphics2D`, `Color`, `Lz10`, `Narc`, `Rom` |
| C161 | replacing several files | `Rom`, `Narc`, `Fnt` |
| C162 | adding files and folders | `Fnt`, `Narc`, `Rom` |
| C163 | order of replacements in nested files | `Narc`, `Lz10`, `Rom` |
| C164 | changed waves, instruments and streams of a game | `SoundArchiveObject`, `SoundWave`, `SoundBank`, `SoundStream`, `Rom`, `Narc`, `Lz10` |
| C165 | renaming files and folders | `Fnt`, `Narc`, `Rom` |
| C166 | removing names and folders | `Fnt`, `Narc`, `Rom` |
| C167 | patching code at an address | `Code`, `RomCode`, `Rom` |
| C168 | changing screen layouts | `Bn`, `Narc`, `Rom`, `Lz10` |
| C169 | repainting textures | `Texture`, `Narc`, `Rom`, `Lz10` |
| C53 | `fnt.load` on all inputs | fuel invariant over the bytes left, then the save theorem |

## Where the code disagrees with a property

* C06: `codeCompression.compress` can raise, can return data that does not decompress to the original, and the
  empty input does not survive (`code_compress_can_raise`, `code_roundtrip_can_corrupt`, `code_roundtrip_empty`).
* C07: for lengths 5 to 35 that are not multiples of four, decompressing data without a footer raises
  (`code_decompress_raises`).
* C08: an empty file name ends the table early (`fnt_empty_name_lost`), so the property asks for non-empty names.
* C17: a section whose length is not a multiple of four shifts the sections behind it (`main_code_unaligned`), so
  the property asks for aligned lengths.
* C18: without code settings every save raises, so nothing built with `fromSections` can be saved
  (`main_code_without_settings_unsavable`, `from_sections_unsavable`).
* C26: from-variable events declare 3 or 4 bytes but save 4 or 6 (`from_variable_length`); the surplus bytes are
  overwritten by the next event.
* C28: an event object that occurs twice in a list is written once only (`sequence_duplicate`).
* C31: nothing wrong in a wave archive's bytes, but `SWAR.fromFile` ignores its `unk02` argument (see C121).
* C32: a stream whose attributes contradict its channels cannot be saved (`strm_unsavable`).
* C57: a variable-length integer with superfluous zero groups makes the reader lose its place
  (`read_save_padded`).
* C59: data appended to a file that says it is not compressed is dropped (`code_decompress_appended_lost`).
* C60: a sequence without first event stays unparsed when its archive is parsed, and `save` then raises
  (`ssar_parse_unsavable`); an archive with neither sequences nor data cannot be parsed (`ssar_empty_parse`).
* C34: a regional instrument without regions, or with a later region that ends at pitch 0, saves but loads back
  different (`empty_regional_lost`, `zero_region_lost`); a range without notes from pitch 0 cannot be saved
  (`empty_range_unsavable`).  Single notes need a type from 1 to 15.
* C35: holds exactly if C34 holds for every instrument of the bank.
* C40, C65: scripts are saved as two 32-bit words but read as a 32-bit and a 16-bit word, so a big-endian file loses
  every script index below 65536 (`bmg_scripts_big`); zero instructions and `(0, 0)` labels are dropped.
* C41: the byte order is guessed by comparing the length read both ways, which is wrong for some little-endian files
  from 64 KiB on (`bmg_byte_order_wrong`).
* C42: loading never ends for a file without `DAT1`, with an unterminated message or with an escape of length 0
  (`bmg_load_endless`).
* C44: `tileAt` and `putTile` compare `y` with the width, so rows from number `width` on are out of reach
  (`tall_grid`).
* C67: rendering tiles whose number is not a multiple of the width raises `StopIteration`
  (`render_incomplete_row`).
* C49: the quote character is printed unescaped inside single quotes (`short_repr_quote`).
* C50: negative indices given to the simultaneous editor are resolved against the list as edited so far
  (`edits_negative`).
* C68: waves are numbered over all archives together, so with two archives the second one's definitions point
  past its waves (`minify_archives`); a note keeps its sound exactly if no wave of a lower archive is needed (`minify_pcm_iff`); duty cycles of PSG definitions are renumbered like waves (`minify_psg`);
  leaving out the archives raises `TypeError` (`minify_no_archives`).
* C70: when the asked time is not reached, `moveInTime` skips events without length (`move_not_first`).
* C71: a song whose track 0 is empty comes back with another track's events in it (`music_empty_track`), and a song
  cannot be made without archives (`music_needs_archives`).
* C38: a file whose ID stands twice in the overlay tables is stored twice, and so is a file that a negative sorted ID
  refers to (`rom_overlay_stored_twice`, `rom_negative_id_stored_twice`).
* C78: updating the device capacity raises `ValueError` for images of at most 64 KiB, a new ROM among them
  (`rom_update_capacity_small`).
* C79: a missing signature comes back as zeros (`rom_no_signature`); data behind ARM9 that does not begin with the marker
  is lost (`rom_post_data_lost`).
* C46: names longer than 16 characters spoil the names behind them, NULs at the end of a name are lost and `None`
  becomes the empty string (`roundtrip_iff` is exact).
* C47: palettes that agree in name and unknown numbers are confused (`same_palettes_spoil`); an empty palette before
  another one takes its colours away (`empty_palette_spoils`); the length of texture data is not checked
  (`short_data_spoils`).
* C76: `Texture.render` needs tables that only `color.prepareLUTs` makes, which nothing calls (`unprepared`), and
  indexes them with the colour tuples of the palette (`paletted_never`, `texeled_no_colour`).
* C88: a sequence archive slot without name and content makes saving raise `AttributeError` unless a named one comes
  before it, so some files without names can be loaded but not saved (`archive_load_no_save`).
* C89: loading guesses the settings, so a new archive without items gets longer when it is loaded and saved
  (`new_resave_longer`), one with a single item gets other lengths, and then other data (`single_resave_differs`,
  `single_data_grows`); the files may differ twice in a row (`single_resave_twice_differs`).
* C91: the table of geometry commands gives three parameter words to 0x72 (VEC_TEST), which has one, so the commands behind
  it are misread (`vec_test_misread`).  The objects made for commands keep neither parameters nor number.
* C93: a model without a model block, a new one among them, cannot be saved (`no_model_block`).
* C94: a model block that claims to be longer than its file swallows the texture block when it is saved and loaded again
  (`cut_block_grows`), so the property asks for one that does not.
* C104: `guessInstrumentType` rules out type 0 where it means type 1, so a single note is returned even if it does not fit
  (`guess_too_long`), and an instrument may be found that overlaps one of the table (`found_overlap`).
* C105: inaccessible instruments listed under an empty slot are lost when the bank is saved (`hidden_lost`).
* C106: a from-variable event of a command that takes one value is four bytes long, but its `dataLength` is three
  (`event_width_short`); so the byte behind it is read as an event.
* C107: `readSequenceEvents` stops at an end of track or a return behind an if-event, so what follows is kept as raw data
  (`conditional_end_lost`); the fate of a jump is never recorded, so the second call of a subroutine that begins with one is taken
  for an endless loop, and what is behind that call is kept as raw data (`jumping_subroutine_lost`).
* C110: an LZ10 reference to before the start of the output is not refused but taken from the end of the output buffer
  (`lz10_decompress_any`, second example).
* C111: the search for code settings raises `struct.error` if the address of the end of the file is at place 1, 2 or 3
  (`settings_search_raises`); such a file cannot be loaded.
* C114: an assignment to `.events` of an unparsed `SSEQ` or `SSAR` is accepted without an exception and then lost: saving writes
  `.eventsData`, and `parse()` overwrites it (`sseq_assignment_lost`).
* C119: an archive with one sequence of three bytes, not padded at the end, gives another file when it is loaded and
  saved, and still another one the next time (`objects_resave_differ`); only then does it stay.
* C121: `SWAR.fromFile(path, unk02)` gives a wave archive with `unk02` 0 (`swar_file_attribute_lost`).
* C122: compressing a file that is called `x.cmp` without naming an output overwrites it (`tool_overwrites_iff`); the
  compressed forms of `x.a` and `x.b` both go to `x.cmp`.
* C123: `MainCodeFile.fromCompressed` decompresses twice (`from_compressed_twice`).
* C124: `STRM.save(updateTime=True)` with a sample rate from 1 to 7 raises struct.error and leaves the stream with a time
  that does not fit its field (`strm_update_time_iff`).
* C126: minifying goes through the events in the order of the list.  Notes before any switch (`minify_default_instrument`),
  in subroutines (`minify_subroutine`) and with random durations (`minify_random_duration`) may sound different
  afterwards.  `minifyBySseq` of an unparsed sequence raises ValueError, `minifyBySseqs` parses it.
* C127: `repr()` of many objects is no expression for an equal object (`not_repr_evaluates`): the test in
  `StreamPlayer.__repr__` is the wrong way round (`repr_streamPlayer`); `Section` and `Escape` are printed without the class
  they are within (`repr_section`, `repr_message_partial`); members of `enum`s are printed as `<…>` (`repr_groupEntry`,
  `repr_note_partial`, `repr_event_partial`); long data, further files and colours beyond the 20th are left out; `isNull`, the
  encoding and the endianness are not printed.  Events that refer to each other in a cycle, as in every looping song, raise
  RecursionError (`repr_event_cycle`).
* C128: a name with spaces in front can look like a name in a subfolder in a printed list (`not_tree_of_str`).
* C129: a portamento on/off event with a value other than 0 and 1 prints like a portamento event (`portamento_str`); of several
  sequences of an `SSAR` without names, or with equal names, only the last one is marked in its printed form (`ssar_unnamed`).
* C130: `SSEQMusic.loop` changes the song also when it raises: the tracks before the one that cannot be looped stay looped
  (`song_loop_not_undone`); since a looped track cannot be looped again, calling it again with other times fails too
  (`song_loop_again`).
* C132: in the drawing of a `BNBL` with more than ten touch areas, a number of two digits moves the rest of its row to the right,
  out of the columns of the other rows (`bnbl_drawing_eleven`).
* C134: palettes of an `NSBTX` that share their colours are loaded as empty (texture.py 440–451: `index(startOff) + 1` finds the
  other one's start as the end), and after saving, palettes behind empty ones are empty too (`nsbtx_reload_fails`).
* C135: like the functions they call, those that make images fail for tiles that do not fill the last row (`tiles_image_incomplete`)
  and for textures with a `Palette` (`texture_image_never`).
* C136: a wave that was loaded or made with the default type is never printed as an expression (`repr_sound_false`); of a
  stream only the first block of the first channel is printed, of a sequence only the first eight events (`repr_strm_partial`,
  `repr_sseq_partial`); `unk02` of wave archives and banks, inaccessible instruments and most attributes of streams are not
  printed; regions are printed without the class they are within; an unparsed sequence is printed as if its event data were a
  file (`repr_sseq_unparsed`).
* C139: a message whose text has brackets may print like another one with an escape (`message_str_ambiguous`).
* C141: a filename table with folders cannot be read back from JSON (`json_folders_fail`): `thisFolder.folders.append` is called
  with two arguments.
* C142: `narctool.py`, and `fnttool.py` with `-in` or `-on`, call `ndspy.narc.load` and `ndspy.narc.save`, which do not exist
  (`narctool_never`, `fnttool_refuses`).
* C143: the text of a `NintendoDSRom` has the printed summary, which begins with `<`, in the place of the data (`repr_rom_never`); of
  an `SDAT` only the first 32 bytes are printed (`repr_sdat_never`); `Track` is printed without the class it is within
  (`repr_track_never`); `SSEQMusic(sseq)` raises TypeError, as the default `None` for `swars` is no list
  (`repr_music_never`); an unparsed `SSAR` is printed as if its event data were a file (`repr_ssar_unparsed`); the first events of a
  parsed one evaluate to objects which are not among its events, so that saving raises KeyError (`repr_ssar_unsavable`).
* C144: with several wave archives, minifying a second time may raise IndexError (`minify_twice_archives`): waves are numbered
  over all archives, so a new number can be beyond the end of its archive.
* C147: `save()` may leave an object changed when it raises (`not_save_atomic`); a ROM of at most 64 KiB for which
  `save(updateDeviceCapacity=True)` has raised ValueError has a negative device capacity, with which `save()` raises too (`rom_spoiled`).
* C148: `minifyByEvents` leaves a regional instrument that is switched to but not played without regions; `SBNK.save` writes
  it as something that `SBNK(...)` cannot load (`not_minify_loads`) or takes for a region made of the bytes of the next
  instrument (`minify_loads_garbage`).
* C149: an event behind a jump within a track (as looping a track without clearing what follows leaves them) comes back from
  the file as raw data (`song_file_dead`).
* C152: a sequence of an SSAR named `a, b` is printed like two sequences named `a` and `b` that begin with the same event (`ssar_comma`).
* C155: a from-variable event claims one byte less than it is read from and saved to, so that changing the first byte of the event after it
  (the pitch of a note, say) changes the variable (`sseq_edit_from_variable`).
* C156: the tutorial on archives (docs/source/tutorials/narc-editing.rst 70 and 303) makes the ROM with `NintendoDSRom('nsmb.nds')`, which takes
  the path for the contents of the ROM; `NintendoDSRom.fromFile` is meant, and modelled.
* C158: false where C40 and C41 are: a big-endian BMG with scripts loses their indices when it is saved with a changed message,
  and a BMG that is saved with a length from which the byte order cannot be told is loaded with the wrong one.

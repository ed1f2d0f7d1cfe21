{
 "claims": [
  {
   "property": "C01",
   "status": "proved",
   "theorems": [
    "Verif.Props.Lz.lz10_roundtrip"
   ],
   "note": ""
  },
  {
   "property": "C02",
   "status": "proved",
   "theorems": [
    "Verif.Props.Lz.lz10_compress_error_iff"
   ],
   "note": ""
  },
  {
   "property": "C03",
   "status": "proved",
   "theorems": [
    "Verif.Props.Lz.lz10_decompress_total",
    "Verif.Props.Lz.lz10_decompress_refines_spec"
   ],
   "note": ""
  },
  {
   "property": "C04",
   "status": "proved",
   "theorems": [
    "Verif.Props.Lz.search_longest"
   ],
   "note": ""
  },
  {
   "property": "C05",
   "status": "proved",
   "theorems": [
    "Verif.Props.Lz.code_roundtrip_of_shorter"
   ],
   "note": "Compressed size below 2^24, the largest size the footer can hold."
  },
  {
   "property": "C06",
   "status": "partial",
   "theorems": [
    "Verif.Props.Lz.code_compress_cases_partial",
    "Verif.Props.Lz.code_compress_can_raise",
    "Verif.Props.Lz.code_roundtrip_can_corrupt",
    "Verif.Props.Lz.code_roundtrip_empty"
   ],
   "note": "False of the code: three witnesses are proved, and the partial theorem classifies every outcome below 16 MiB."
  },
  {
   "property": "C07",
   "status": "partial",
   "theorems": [
    "Verif.Props.Lz.code_decompress_plain_partial",
    "Verif.Props.Lz.code_decompress_raises"
   ],
   "note": "False of the code for lengths 5..35 that are not multiples of 4 (proved to raise); the partial theorem covers all other lengths."
  },
  {
   "property": "C08",
   "status": "proved",
   "theorems": [
    "Verif.Props.Fnt.fnt_roundtrip",
    "Verif.Props.Fnt.fnt_empty_name_lost"
   ],
   "note": "File names must be non-empty; fnt_empty_name_lost shows why."
  },
  {
   "property": "C09",
   "status": "proved",
   "theorems": [
    "Verif.Props.Fnt.fnt_save_ok_iff",
    "Verif.Props.Fnt.fnt_save_rejects"
   ],
   "note": ""
  },
  {
   "property": "C10",
   "status": "proved",
   "theorems": [
    "Verif.Props.Fnt.id_of_filename"
   ],
   "note": ""
  },
  {
   "property": "C11",
   "status": "proved",
   "theorems": [
    "Verif.Props.Fnt.idOf_iff",
    "Verif.Props.Fnt.subfolder_iff",
    "Verif.Props.Fnt.path_total",
    "Verif.Props.Fnt.getitem_str",
    "Verif.Props.Fnt.getitem_int"
   ],
   "note": ""
  },
  {
   "property": "C12",
   "status": "proved",
   "theorems": [
    "Verif.Props.Narc.narc_roundtrip"
   ],
   "note": ""
  },
  {
   "property": "C13",
   "status": "proved",
   "theorems": [
    "Verif.Props.Narc.narc_set_get",
    "Verif.Props.Narc.narc_unknown_name"
   ],
   "note": ""
  },
  {
   "property": "C14",
   "status": "proved",
   "theorems": [
    "Verif.Props.Narc.narc_layout"
   ],
   "note": ""
  },
  {
   "property": "C15",
   "status": "proved",
   "theorems": [
    "Verif.Props.Overlay.overlay_table_roundtrip",
    "Verif.Props.Overlay.overlay_table_resave",
    "Verif.Props.Overlay.overlay_file_resave"
   ],
   "note": ""
  },
  {
   "property": "C16",
   "status": "proved",
   "theorems": [
    "Verif.Props.Overlay.set_compressed",
    "Verif.Props.Overlay.set_verifyHash"
   ],
   "note": ""
  },
  {
   "property": "C17",
   "status": "proved",
   "theorems": [
    "Verif.Props.MainCode.main_code_roundtrip",
    "Verif.Props.MainCode.main_code_pointer",
    "Verif.Props.MainCode.main_code_magic",
    "Verif.Props.MainCode.main_code_unaligned"
   ],
   "note": "main_code_unaligned shows that the hypothesis on lengths is needed."
  },
  {
   "property": "C18",
   "status": "partial",
   "theorems": [
    "Verif.Props.MainCode.main_code_without_settings_unsavable",
    "Verif.Props.MainCode.from_sections_unsavable"
   ],
   "note": "False of the code: proved that no file without code settings can be saved."
  },
  {
   "property": "C19",
   "status": "proved",
   "theorems": [
    "Verif.Props.Util.crc16_detects",
    "Verif.Props.Util.crc16_lt",
    "Verif.Props.Util.crc16_xor"
   ],
   "note": ""
  },
  {
   "property": "C20",
   "status": "proved",
   "theorems": [
    "Verif.Props.Color.pack_unpack_inverse",
    "Verif.Props.Color.expand_contract_inverse",
    "Verif.Props.Color.contract_closest",
    "Verif.Props.Color.luts_agree",
    "Verif.Props.Color.convert_valid",
    "Verif.Props.Color.convert_commutes",
    "Verif.Props.Color.convert_lossless"
   ],
   "note": ""
  },
  {
   "property": "C21",
   "status": "proved",
   "theorems": [
    "Verif.Props.Color.palette_roundtrip",
    "Verif.Props.Color.palette_roundtrip_bytes"
   ],
   "note": ""
  },
  {
   "property": "C22",
   "status": "proved",
   "theorems": [
    "Verif.Props.Util.alignment_roundtrip",
    "Verif.Props.Util.alignment_unpack_proper",
    "Verif.Props.Util.topLeft_contains_anchor"
   ],
   "note": ""
  },
  {
   "property": "C23",
   "status": "proved",
   "theorems": [
    "Verif.Props.Bn.bnbl_roundtrip",
    "Verif.Props.Bn.bnbl_save_iff",
    "Verif.Props.Bn.bnbl_resave"
   ],
   "note": ""
  },
  {
   "property": "C24",
   "status": "proved",
   "theorems": [
    "Verif.Props.Bn.bncl_roundtrip",
    "Verif.Props.Bn.bncl_save_iff",
    "Verif.Props.Bn.bncl_resave"
   ],
   "note": ""
  },
  {
   "property": "C25",
   "status": "proved",
   "theorems": [
    "Verif.Props.Sequence.vlq_roundtrip",
    "Verif.Props.Sequence.vlq_too_big",
    "Verif.Props.Sequence.vlq_negative",
    "Verif.Props.Sequence.vlq_format"
   ],
   "note": ""
  },
  {
   "property": "C26",
   "status": "partial",
   "theorems": [
    "Verif.Props.Sequence.event_length_partial",
    "Verif.Props.Sequence.from_variable_length"
   ],
   "note": "False of the code for from-variable events, which declare 3 or 4 bytes and save 4 or 6 (from_variable_length); proved for all others."
  },
  {
   "property": "C27",
   "status": "proved",
   "theorems": [
    "Verif.Props.Sequence.event_roundtrip",
    "Verif.Props.Sequence.event_roundtrip_refs"
   ],
   "note": ""
  },
  {
   "property": "C28",
   "status": "proved",
   "theorems": [
    "Verif.Props.Sequence.sequence_layout",
    "Verif.Props.Sequence.sequence_event_at",
    "Verif.Props.Sequence.sequence_jump",
    "Verif.Props.Sequence.sequence_call",
    "Verif.Props.Sequence.sequence_begin_track",
    "Verif.Props.Sequence.sequence_save_iff",
    "Verif.Props.Sequence.sequence_duplicate"
   ],
   "note": "sequence_duplicate shows that the events must be different objects."
  },
  {
   "property": "C29",
   "status": "proved",
   "theorems": [
    "Verif.Props.Sequence.sseq_roundtrip",
    "Verif.Props.Sequence.sseq_parsed_save",
    "Verif.Props.Sequence.sseq_header"
   ],
   "note": ""
  },
  {
   "property": "C30",
   "status": "proved",
   "theorems": [
    "Verif.Props.SoundWave.swav_roundtrip",
    "Verif.Props.SoundWave.swav_save_updates",
    "Verif.Props.SoundWave.swav_save_iff",
    "Verif.Props.SoundWave.swav_file_resave"
   ],
   "note": ""
  },
  {
   "property": "C31",
   "status": "proved",
   "theorems": [
    "Verif.Props.SoundWave.swar_roundtrip",
    "Verif.Props.SoundWave.swar_save_iff",
    "Verif.Props.SoundWave.swar_save_length",
    "Verif.Props.SoundWave.swar_file_resave"
   ],
   "note": ""
  },
  {
   "property": "C32",
   "status": "proved",
   "theorems": [
    "Verif.Props.SoundStream.strm_roundtrip",
    "Verif.Props.SoundStream.strm_inconsistent",
    "Verif.Props.SoundStream.strm_block_position",
    "Verif.Props.SoundStream.strm_unsavable"
   ],
   "note": ""
  },
  {
   "property": "C33",
   "status": "proved",
   "theorems": [
    "Verif.Props.SoundStream.group_entry_roundtrip",
    "Verif.Props.SoundStream.group_entry_resave",
    "Verif.Props.SoundStream.group_entry_bits",
    "Verif.Props.SoundStream.group_entry_fromFlags",
    "Verif.Props.SoundStream.group_roundtrip",
    "Verif.Props.SoundStream.group_resave"
   ],
   "note": ""
  },
  {
   "property": "C34",
   "status": "partial",
   "theorems": [
    "Verif.Props.SoundBank.instrument_roundtrip_partial",
    "Verif.Props.SoundBank.instrument_loadable",
    "Verif.Props.SoundBank.instrument_resave",
    "Verif.Props.SoundBank.empty_regional_lost",
    "Verif.Props.SoundBank.zero_region_lost",
    "Verif.Props.SoundBank.empty_range_unsavable"
   ],
   "note": "False of the code for regional instruments without regions or with a later region that ends at pitch 0, and for single notes of a type outside 1 to 15; proved for all others, and nothing else can be loaded."
  },
  {
   "property": "C35",
   "status": "partial",
   "theorems": [
    "Verif.Props.SoundBank.bank_roundtrip_partial",
    "Verif.Props.SoundBank.bank_roundtrip_rest",
    "Verif.Props.SoundBank.bank_file_roundtrip"
   ],
   "note": "Holds exactly for the banks whose instruments C34 holds for; that includes all banks that come from files."
  },
  {
   "property": "C36",
   "status": "proved",
   "theorems": [
    "Verif.Props.SoundArchive.file_id_shared",
    "Verif.Props.SoundArchive.file_id_own",
    "Verif.Props.SoundArchive.file_ids_stay",
    "Verif.Props.SoundArchive.files_once",
    "Verif.Props.SoundArchive.archive_sharing"
   ],
   "note": ""
  },
  {
   "property": "C37",
   "status": "proved",
   "theorems": [
    "Verif.Props.Rom.rom_checksums",
    "Verif.Props.Rom.rom_checksum_detects"
   ],
   "note": ""
  },
  {
   "property": "C38",
   "status": "partial",
   "theorems": [
    "Verif.Props.Rom.rom_files",
    "Verif.Props.Rom.rom_layout",
    "Verif.Props.Rom.rom_files_once_partial",
    "Verif.Props.Rom.rom_overlay_stored_twice",
    "Verif.Props.Rom.rom_negative_id_stored_twice"
   ],
   "note": "Everything holds but 'exactly once': a file whose ID is twice in the overlay tables, or that a negative sorted ID refers to, is stored twice (both proved); otherwise it is stored once (rom_files_once_partial)."
  },
  {
   "property": "C39",
   "status": "proved",
   "theorems": [
    "Verif.Props.Rom.rom_roundtrip"
   ],
   "note": "Names of at most 12 bytes that do not end in NUL; the other attributes are in C79."
  },
  {
   "property": "C40",
   "status": "partial",
   "theorems": [
    "Verif.Props.Bmg.bmg_roundtrip_partial",
    "Verif.Props.Bmg.bmg_roundtrip_iff",
    "Verif.Props.Bmg.bmg_message_tokens",
    "Verif.Props.Bmg.bmg_scripts_big"
   ],
   "note": "False of the code for big-endian files with scripts, whose indices are lost (bmg_scripts_big), and zero instructions and (0, 0) labels are dropped; bmg_roundtrip_iff says exactly which BMGs come back. Python's Shift-JIS codec is a parameter with stated laws; UTF-16, UTF-8 and Windows-1252 are modelled and proved lawful."
  },
  {
   "property": "C41",
   "status": "partial",
   "theorems": [
    "Verif.Props.Bmg.bmg_byte_order_iff",
    "Verif.Props.Bmg.bmg_byte_order_short_partial",
    "Verif.Props.Bmg.bmg_byte_order_wrong"
   ],
   "note": "False of the code from 64 KiB on (bmg_byte_order_wrong); exact characterisation proved."
  },
  {
   "property": "C42",
   "status": "partial",
   "theorems": [
    "Verif.Props.Bmg.bmg_load_endless",
    "Verif.Props.Bmg.bmg_message_ends_partial",
    "Verif.Props.Bmg.bmg_message_endless",
    "Verif.Props.Bmg.bmg_load_settled"
   ],
   "note": "False of the code (bmg_load_endless); exact characterisation of the messages on which reading ends."
  },
  {
   "property": "C43",
   "status": "proved",
   "theorems": [
    "Verif.Props.Graphics2D.tile_roundtrip",
    "Verif.Props.Graphics2D.tile_roundtrip_bytes",
    "Verif.Props.Graphics2D.tile_pixels",
    "Verif.Props.Graphics2D.tiles_roundtrip",
    "Verif.Props.Graphics2D.tiles_roundtrip_bytes",
    "Verif.Props.Graphics2D.tiles_mixed",
    "Verif.Props.Graphics2D.tilemap_entry",
    "Verif.Props.Graphics2D.tilemap_entry_value",
    "Verif.Props.Graphics2D.tilemap_entry_set",
    "Verif.Props.Graphics2D.tilemap_roundtrip",
    "Verif.Props.Graphics2D.tilemap_roundtrip_bytes"
   ],
   "note": ""
  },
  {
   "property": "C44",
   "status": "partial",
   "theorems": [
    "Verif.Props.Graphics2D.put_get_partial",
    "Verif.Props.Graphics2D.tile_at",
    "Verif.Props.Graphics2D.tall_grid"
   ],
   "note": "False of the code for rows from number width on (tall_grid): y is compared with the width. Proved for all coordinates that the functions accept."
  },
  {
   "property": "C45",
   "status": "proved",
   "theorems": [
    "Verif.Props.Texture.word_iff",
    "Verif.Props.Texture.word_error",
    "Verif.Props.Texture.word_roundtrip",
    "Verif.Props.Texture.fields_roundtrip",
    "Verif.Props.Texture.word_layout",
    "Verif.Props.Texture.word_injective"
   ],
   "note": ""
  },
  {
   "property": "C46",
   "status": "proved",
   "theorems": [
    "Verif.Props.InfoBlock.roundtrip_iff",
    "Verif.Props.InfoBlock.load_saved",
    "Verif.Props.InfoBlock.loaded_name",
    "Verif.Props.InfoBlock.saves_iff",
    "Verif.Props.InfoBlock.size_field",
    "Verif.Props.InfoBlock.resave"
   ],
   "note": ""
  },
  {
   "property": "C47",
   "status": "proved",
   "theorems": [
    "Verif.Props.Texture.nsbtx_roundtrip",
    "Verif.Props.Texture.nsbtx_accepts",
    "Verif.Props.Texture.empty_palette_spoils",
    "Verif.Props.Texture.same_palettes_spoil",
    "Verif.Props.Texture.short_data_spoils"
   ],
   "note": "Well formed means Representable; the three counterexamples show that its conditions on palettes and data lengths are needed."
  },
  {
   "property": "C48",
   "status": "proved",
   "theorems": [
    "Verif.Props.Util.named_list_hit",
    "Verif.Props.Util.named_list_miss"
   ],
   "note": ""
  },
  {
   "property": "C49",
   "status": "partial",
   "theorems": [
    "Verif.Props.Util.short_repr_partial",
    "Verif.Props.Util.short_repr_iff",
    "Verif.Props.Util.short_repr_printable",
    "Verif.Props.Util.short_repr_quote"
   ],
   "note": "False of the code for the byte 0x27 (short_repr_quote); exactly the data without that byte evaluates back (short_repr_iff)."
  },
  {
   "property": "C50",
   "status": "partial",
   "theorems": [
    "Verif.Props.MusicEdit.edits_simultaneous_partial",
    "Verif.Props.MusicEdit.edits_commute",
    "Verif.Props.MusicEdit.edits_negative",
    "Verif.Props.MusicEdit.set_alone",
    "Verif.Props.MusicEdit.del_alone",
    "Verif.Props.MusicEdit.insert_alone"
   ],
   "note": "Proved for all edits with indices from 0 to the length of the list. Negative indices are not taken relative to the original list (edits_negative)."
  },
  {
   "property": "C51",
   "status": "proved",
   "theorems": [
    "Verif.Props.Music.duration_of",
    "Verif.Props.Music.move_raises",
    "Verif.Props.Music.move_spec",
    "Verif.Props.Music.move_short",
    "Verif.Props.Music.move_largest",
    "Verif.Props.Music.move_exact",
    "Verif.Props.Music.move_edits",
    "Verif.Props.Music.move_onsets"
   ],
   "note": ""
  },
  {
   "property": "C52",
   "status": "proved",
   "theorems": [
    "Verif.Props.SequenceArchive.ssar_save_iff",
    "Verif.Props.SequenceArchive.ssar_roundtrip"
   ],
   "note": ""
  },
  {
   "property": "C53",
   "status": "proved",
   "theorems": [
    "Verif.Props.Fnt.fnt_load_total",
    "Verif.Props.Fnt.fnt_resave"
   ],
   "note": ""
  },
  {
   "property": "C54",
   "status": "proved",
   "theorems": [
    "Verif.Props.Overlay.overlay_save_fields",
    "Verif.Props.Overlay.overlay_reopen",
    "Verif.Props.Overlay.overlay_reopen_compressed"
   ],
   "note": ""
  },
  {
   "property": "C55",
   "status": "proved",
   "theorems": [
    "Verif.Props.MainCode.main_code_compressed_roundtrip"
   ],
   "note": ""
  },
  {
   "property": "C56",
   "status": "proved",
   "theorems": [
    "Verif.Props.SequenceRead.read_total"
   ],
   "note": ""
  },
  {
   "property": "C57",
   "status": "proved",
   "theorems": [
    "Verif.Props.SequenceRead.read_tiles",
    "Verif.Props.SequenceRead.read_save",
    "Verif.Props.SequenceRead.read_save_padded"
   ],
   "note": ""
  },
  {
   "property": "C58",
   "status": "proved",
   "theorems": [
    "Verif.Props.SequenceRead.save_read",
    "Verif.Props.SequenceRead.save_read_complete"
   ],
   "note": ""
  },
  {
   "property": "C59",
   "status": "proved",
   "theorems": [
    "Verif.Props.Lz.code_decompress_appended",
    "Verif.Props.Lz.code_decompress_appended_lost"
   ],
   "note": ""
  },
  {
   "property": "C60",
   "status": "partial",
   "theorems": [
    "Verif.Props.SequenceArchive.ssar_parse_save_partial",
    "Verif.Props.SequenceArchive.ssar_parse_unsavable",
    "Verif.Props.SequenceArchive.ssar_empty_parse"
   ],
   "note": "False of the code for archives with a sequence that has no first event: they cannot be saved after parsing (ssar_parse_unsavable). Proved when every sequence has a first event."
  },
  {
   "property": "C61",
   "status": "proved",
   "theorems": [
    "Verif.Props.SequenceArchive.ssar_parsed_save",
    "Verif.Props.SequenceArchive.ssar_header",
    "Verif.Props.SequenceArchive.ssar_reparse"
   ],
   "note": ""
  },
  {
   "property": "C62",
   "status": "proved",
   "theorems": [
    "Verif.Props.SoundBank.bank_load_total"
   ],
   "note": ""
  },
  {
   "property": "C63",
   "status": "proved",
   "theorems": [
    "Verif.Props.SoundBank.bank_resave"
   ],
   "note": ""
  },
  {
   "property": "C64",
   "status": "proved",
   "theorems": [
    "Verif.Props.SoundBank.bank_layout",
    "Verif.Props.SoundBank.bank_sharing"
   ],
   "note": ""
  },
  {
   "property": "C65",
   "status": "partial",
   "theorems": [
    "Verif.Props.Bmg.bmg_resave_partial"
   ],
   "note": "Big-endian files with non-zero script indices excluded, for which it is false (bmg_scripts_big)."
  },
  {
   "property": "C66",
   "status": "proved",
   "theorems": [
    "Verif.Props.Bmg.bmg_layout"
   ],
   "note": ""
  },
  {
   "property": "C67",
   "status": "partial",
   "theorems": [
    "Verif.Props.Graphics2D.render_tile",
    "Verif.Props.Graphics2D.render_entry",
    "Verif.Props.Graphics2D.render_entry_i8",
    "Verif.Props.Graphics2D.render_entry_tile",
    "Verif.Props.Graphics2D.render_tiles_partial",
    "Verif.Props.Graphics2D.render_tilemap_partial",
    "Verif.Props.Graphics2D.render_incomplete_row"
   ],
   "note": "False of the code when the last row is incomplete, where StopIteration is raised (render_incomplete_row); proved for complete rows."
  },
  {
   "property": "C68",
   "status": "partial",
   "theorems": [
    "Verif.Props.MusicMinify.minify_heard_partial",
    "Verif.Props.MusicMinify.minify_numbers",
    "Verif.Props.MusicMinify.minify_pcm_iff",
    "Verif.Props.MusicMinify.minify_psg_iff",
    "Verif.Props.MusicMinify.minify_keeps",
    "Verif.Props.MusicMinify.minify_waves",
    "Verif.Props.MusicMinify.minify_succeeds",
    "Verif.Props.MusicMinify.minify_no_archives",
    "Verif.Props.MusicMinify.minify_archives",
    "Verif.Props.MusicMinify.minify_psg"
   ],
   "note": "False of the code with more than one archive (minify_archives), with PSG definitions (minify_psg) and without archives (minify_no_archives); proved for PCM definitions in one archive. For any archives and types minify_numbers says what number a definition gets, and minify_pcm_iff and minify_psg_iff say exactly which notes keep their sound."
  },
  {
   "property": "C69",
   "status": "proved",
   "theorems": [
    "Verif.Props.Music.looped_iff",
    "Verif.Props.Music.loop_looped",
    "Verif.Props.Music.loop_track"
   ],
   "note": ""
  },
  {
   "property": "C70",
   "status": "partial",
   "theorems": [
    "Verif.Props.Music.move_first_partial",
    "Verif.Props.Music.move_last",
    "Verif.Props.Music.move_not_first"
   ],
   "note": "Holds when the asked time is reached; false when the function stops short (move_not_first), where it is the last event at its time (move_last)."
  },
  {
   "property": "C71",
   "status": "partial",
   "theorems": [
    "Verif.Props.MusicTracks.music_roundtrip_partial",
    "Verif.Props.MusicTracks.music_open",
    "Verif.Props.MusicTracks.music_no_events",
    "Verif.Props.MusicTracks.music_empty_track",
    "Verif.Props.MusicTracks.music_needs_archives"
   ],
   "note": "Proved for songs without empty tracks whose first event does not begin a track; music_open says what comes back of any song with an event: empty tracks are lost, an empty track 0 comes back with another track's events (music_empty_track)."
  },
  {
   "property": "C72",
   "status": "proved",
   "theorems": [
    "Verif.Props.MusicTracks.velocities_clamped",
    "Verif.Props.MusicTracks.velocities_exact"
   ],
   "note": ""
  },
  {
   "property": "C73",
   "status": "proved",
   "theorems": [
    "Verif.Props.MusicTracks.initial_get",
    "Verif.Props.MusicTracks.initial_set",
    "Verif.Props.MusicTracks.initial_set_ok",
    "Verif.Props.MusicTracks.initial_delete",
    "Verif.Props.MusicTracks.initial_delete_again"
   ],
   "note": ""
  },
  {
   "property": "C74",
   "status": "proved",
   "theorems": [
    "Verif.Props.MusicTracks.collapse_tracks"
   ],
   "note": ""
  },
  {
   "property": "C75",
   "status": "proved",
   "theorems": [
    "Verif.Props.Texture.render_spec",
    "Verif.Props.Texture.allowed_covered",
    "Verif.Props.Texture.direct_spec"
   ],
   "note": ""
  },
  {
   "property": "C76",
   "status": "partial",
   "theorems": [
    "Verif.Props.Texture.unprepared",
    "Verif.Props.Texture.unknown_format",
    "Verif.Props.Texture.paletted_never",
    "Verif.Props.Texture.paletted_type_error",
    "Verif.Props.Texture.texeled_no_colour",
    "Verif.Props.Texture.direct_spec",
    "Verif.Props.Texture.direct_render_partial"
   ],
   "note": "False of the code: the colour tables are never prepared by the library (unprepared), and even with tables a Palette holds tuples where the renderer needs numbers (paletted_never, texeled_no_colour). Direct colour textures, which need no palette, do render (direct_spec)."
  },
  {
   "property": "C77",
   "status": "proved",
   "theorems": [
    "Verif.Props.Rom.rom_save_iff"
   ],
   "note": ""
  },
  {
   "property": "C78",
   "status": "partial",
   "theorems": [
    "Verif.Props.Rom.rom_update_capacity_partial",
    "Verif.Props.Rom.rom_update_capacity_small"
   ],
   "note": "False of the code for images of at most 64 KiB, for which saving raises ValueError (rom_update_capacity_small); proved above that size."
  },
  {
   "property": "C79",
   "status": "proved",
   "theorems": [
    "Verif.Props.Rom.rom_signature",
    "Verif.Props.Rom.rom_signature_roundtrip",
    "Verif.Props.Rom.rom_no_signature",
    "Verif.Props.Rom.rom_padding",
    "Verif.Props.Rom.rom_post_data",
    "Verif.Props.Rom.rom_post_data_padded",
    "Verif.Props.Rom.rom_post_data_lost"
   ],
   "note": ""
  },
  {
   "property": "C80",
   "status": "proved",
   "theorems": [
    "Verif.Props.Rom.rom_load_iff",
    "Verif.Props.Rom.rom_load_parts",
    "Verif.Props.Rom.rom_load_signature"
   ],
   "note": ""
  },
  {
   "property": "C81",
   "status": "proved",
   "theorems": [
    "Verif.Props.Rom.rom_sorted_ids"
   ],
   "note": ""
  },
  {
   "property": "C82",
   "status": "proved",
   "theorems": [
    "Verif.Props.Rom.rom_resave"
   ],
   "note": ""
  },
  {
   "property": "C83",
   "status": "proved",
   "theorems": [
    "Verif.Props.Rom.rom_set_get",
    "Verif.Props.Rom.rom_unknown_name"
   ],
   "note": ""
  },
  {
   "property": "C84",
   "status": "proved",
   "theorems": [
    "Verif.Props.SoundArchive.archive_round_trip",
    "Verif.Props.SoundArchive.archive_files_exact"
   ],
   "note": ""
  },
  {
   "property": "C85",
   "status": "proved",
   "theorems": [
    "Verif.Props.SoundArchive.archive_file_padding",
    "Verif.Props.SoundArchive.archive_round_trip"
   ],
   "note": ""
  },
  {
   "property": "C86",
   "status": "proved",
   "theorems": [
    "Verif.Props.SoundArchive.archive_layout",
    "Verif.Props.SoundArchive.archive_block_headers",
    "Verif.Props.SoundArchive.archive_files"
   ],
   "note": ""
  },
  {
   "property": "C87",
   "status": "proved",
   "theorems": [
    "Verif.Props.SoundArchive.archive_load_files"
   ],
   "note": ""
  },
  {
   "property": "C88",
   "status": "proved",
   "theorems": [
    "Verif.Props.SoundArchive.archive_save_iff",
    "Verif.Props.SoundArchive.archive_load_no_save"
   ],
   "note": "The last condition makes an archive without names whose first sequence archive slot is empty loadable but not savable (archive_load_no_save)."
  },
  {
   "property": "C89",
   "status": "partial",
   "theorems": [
    "Verif.Props.SoundArchive.archive_resave_partial",
    "Verif.Props.SoundArchive.archive_resave_iff",
    "Verif.Props.SoundArchive.archive_resave_settles",
    "Verif.Props.SoundArchive.archive_resave_empty",
    "Verif.Props.SoundArchive.new_resave_longer",
    "Verif.Props.SoundArchive.single_resave_differs",
    "Verif.Props.SoundArchive.single_resave_twice_differs",
    "Verif.Props.SoundArchive.single_data_grows"
   ],
   "note": "False of the code: a new archive without files, or with one, differs after loading and saving (new_resave_longer, single_resave_differs). Proved: exactly when it holds (archive_resave_iff), two sufficient conditions (archive_resave_partial), and that nothing changes any more from the second loading on (archive_resave_settles)."
  },
  {
   "property": "C90",
   "status": "proved",
   "theorems": [
    "Verif.Props.SoundArchive.archive_load_items",
    "Verif.Props.SoundArchive.archive_load_files"
   ],
   "note": ""
  },
  {
   "property": "C91",
   "status": "partial",
   "theorems": [
    "Verif.Props.Nsbmd.display_list_commands_partial",
    "Verif.Props.Nsbmd.display_list_total",
    "Verif.Props.Nsbmd.vec_test_misread"
   ],
   "note": "All commands but 0x72 (VEC_TEST), which takes one parameter word on the hardware and three in the library; what follows it is misread (vec_test_misread)."
  },
  {
   "property": "C92",
   "status": "proved",
   "theorems": [
    "Verif.Props.Nsbmd.load_blocks"
   ],
   "note": ""
  },
  {
   "property": "C93",
   "status": "proved",
   "theorems": [
    "Verif.Props.Nsbmd.save_iff",
    "Verif.Props.Nsbmd.save_layout",
    "Verif.Props.Nsbmd.no_model_block"
   ],
   "note": ""
  },
  {
   "property": "C94",
   "status": "proved",
   "theorems": [
    "Verif.Props.Nsbmd.model_round_trip",
    "Verif.Props.Nsbmd.import_export",
    "Verif.Props.Nsbmd.cut_block_grows"
   ],
   "note": ""
  },
  {
   "property": "C95",
   "status": "proved",
   "theorems": [
    "Verif.Props.NoteName.note_name_reads",
    "Verif.Props.NoteName.note_name_injective"
   ],
   "note": ""
  },
  {
   "property": "C96",
   "status": "proved",
   "theorems": [
    "Verif.Props.FormatBn.bnbl_load_iff",
    "Verif.Props.FormatBn.bncl_load_iff",
    "Verif.Props.FormatBn.bnbl_saved",
    "Verif.Props.FormatBn.bncl_saved"
   ],
   "note": ""
  },
  {
   "property": "C97",
   "status": "proved",
   "theorems": [
    "Verif.Props.FormatSound.swav_load_iff",
    "Verif.Props.FormatSound.swar_load_iff",
    "Verif.Props.FormatSound.strm_load_iff",
    "Verif.Props.FormatSound.swav_saved",
    "Verif.Props.FormatSound.swar_saved",
    "Verif.Props.FormatSound.strm_saved"
   ],
   "note": ""
  },
  {
   "property": "C98",
   "status": "proved",
   "theorems": [
    "Verif.Props.FormatCode.overlay_table_load_iff",
    "Verif.Props.FormatCode.overlay_table_load"
   ],
   "note": ""
  },
  {
   "property": "C99",
   "status": "proved",
   "theorems": [
    "Verif.Props.FormatFnt.fnt_load_iff",
    "Verif.Props.FormatFnt.fnt_unique",
    "Verif.Props.FormatFnt.fnt_save_layout",
    "Verif.Props.FormatNarc.narc_load_iff",
    "Verif.Props.FormatNarc.narc_saved"
   ],
   "note": ""
  },
  {
   "property": "C100",
   "status": "proved",
   "theorems": [
    "Verif.Props.FormatHeader.swav_header",
    "Verif.Props.FormatHeader.swar_header",
    "Verif.Props.FormatHeader.strm_header",
    "Verif.Props.FormatHeader.sseq_header",
    "Verif.Props.FormatHeader.ssar_header",
    "Verif.Props.FormatHeader.sbnk_header",
    "Verif.Props.FormatHeader.nsbtx_header",
    "Verif.Props.FormatNarc.narc_saved"
   ],
   "note": ""
  },
  {
   "property": "C101",
   "status": "proved",
   "theorems": [
    "Verif.Props.FormatNsbmd.mdl0_load_iff"
   ],
   "note": ""
  },
  {
   "property": "C102",
   "status": "proved",
   "theorems": [
    "Verif.Props.FormatNsbtx.tex0_load_iff",
    "Verif.Props.FormatNsbtx.nsbtx_load_iff",
    "Verif.Props.FormatNsbtx.nsbmd_load_iff",
    "Verif.Props.FormatNsbtx.nsbtx_saved"
   ],
   "note": ""
  },
  {
   "property": "C103",
   "status": "proved",
   "theorems": [
    "Verif.Props.FormatSbnk.instrument_load_iff",
    "Verif.Props.FormatSbnk.bank_load",
    "Verif.Props.FormatSbnk.bank_loads_iff",
    "Verif.Props.FormatSbnk.bank_load_iff",
    "Verif.Props.BankSearch.bank_search"
   ],
   "note": ""
  },
  {
   "property": "C104",
   "status": "proved",
   "theorems": [
    "Verif.Props.GuessInst.guess_best",
    "Verif.Props.GuessInst.guess_too_long",
    "Verif.Props.GuessInst.found_overlap"
   ],
   "note": ""
  },
  {
   "property": "C105",
   "status": "proved",
   "theorems": [
    "Verif.Props.BankOrder.bank_order",
    "Verif.Props.BankOrder.hidden_saved",
    "Verif.Props.BankOrder.hidden_lost"
   ],
   "note": ""
  },
  {
   "property": "C106",
   "status": "proved",
   "theorems": [
    "Verif.Props.FormatSseq.event_iff",
    "Verif.Props.FormatSseq.event_width",
    "Verif.Props.FormatSseq.event_width_short",
    "Verif.Props.FormatSseq.read_events",
    "Verif.Props.FormatSseq.saved_events",
    "Verif.Props.FormatSseq.sseq_load_iff",
    "Verif.Props.FormatSseq.ssar_load_iff"
   ],
   "note": ""
  },
  {
   "property": "C107",
   "status": "proved",
   "theorems": [
    "Verif.Props.SequencePlay.parsed_reachable",
    "Verif.Props.SequencePlay.direct_parsed",
    "Verif.Props.SequencePlay.raw_not_direct",
    "Verif.Props.SequencePlay.direct_reachable",
    "Verif.Props.SequencePlay.sub_back",
    "Verif.Props.SequencePlay.conditional_end_lost",
    "Verif.Props.SequencePlay.jumping_subroutine_lost"
   ],
   "note": ""
  },
  {
   "property": "C108",
   "status": "proved",
   "theorems": [
    "Verif.Props.FormatBmg.bmg_load_iff",
    "Verif.Props.FormatBmg.bmg_contents_unique",
    "Verif.Props.FormatBmg.saved_bmg"
   ],
   "note": ""
  },
  {
   "property": "C109",
   "status": "proved",
   "theorems": [
    "Verif.Props.FormatGraphics.unpack_bits",
    "Verif.Props.FormatGraphics.pack_bits",
    "Verif.Props.FormatGraphics.unpack255_bits",
    "Verif.Props.FormatGraphics.convert_formats",
    "Verif.Props.FormatGraphics.color_bytes",
    "Verif.Props.FormatGraphics.palette_bytes",
    "Verif.Props.FormatGraphics.palette_saved",
    "Verif.Props.FormatGraphics.tiles_bytes",
    "Verif.Props.FormatGraphics.tilemap_bytes",
    "Verif.Props.FormatGraphics.tilemap_bytes_8"
   ],
   "note": ""
  },
  {
   "property": "C110",
   "status": "proved",
   "theorems": [
    "Verif.Props.LzAny.lz10_decompress_any",
    "Verif.Props.LzAny.lz10_decompress_trailing",
    "Verif.Props.LzAny.code_decompress_any"
   ],
   "note": ""
  },
  {
   "property": "C111",
   "status": "proved",
   "theorems": [
    "Verif.Props.FormatMainCode.settings_any",
    "Verif.Props.FormatMainCode.main_code_any",
    "Verif.Props.FormatMainCode.settings_search_raises"
   ],
   "note": ""
  },
  {
   "property": "C112",
   "status": "proved",
   "theorems": [
    "Verif.Props.FormatRom.rom_any",
    "Verif.Props.FormatRom.rom_saved_bytes"
   ],
   "note": ""
  },
  {
   "property": "C113",
   "status": "proved",
   "theorems": [
    "Verif.Props.Crc.crc16_remainder"
   ],
   "note": ""
  },
  {
   "property": "C114",
   "status": "proved",
   "theorems": [
    "Verif.Props.SequenceObject.sseq_before_parse",
    "Verif.Props.SequenceObject.sseq_after_parse",
    "Verif.Props.SequenceObject.sseq_from_events",
    "Verif.Props.SequenceObject.sseq_assignment_lost",
    "Verif.Props.SequenceObject.ssar_before_parse",
    "Verif.Props.SequenceObject.ssar_after_parse",
    "Verif.Props.SequenceObject.ssar_from_events"
   ],
   "note": ""
  },
  {
   "property": "C115",
   "status": "proved",
   "theorems": [
    "Verif.Props.RomCode.rom_overlay_edit",
    "Verif.Props.RomCode.rom_overlay_edit7"
   ],
   "note": ""
  },
  {
   "property": "C116",
   "status": "proved",
   "theorems": [
    "Verif.Props.RomCode.rom_reload_code",
    "Verif.Props.RomCode.rom_set_reload",
    "Verif.Props.RomCode.rom_main_code",
    "Verif.Props.RomCode.rom_main_code7",
    "Verif.Props.RomCode.rom_main_code_compressed"
   ],
   "note": ""
  },
  {
   "property": "C117",
   "status": "proved",
   "theorems": [
    "Verif.Props.SoundArchiveObject.archive_objects"
   ],
   "note": ""
  },
  {
   "property": "C118",
   "status": "proved",
   "theorems": [
    "Verif.Props.SoundArchiveObject.archive_objects_again"
   ],
   "note": ""
  },
  {
   "property": "C119",
   "status": "partial",
   "theorems": [
    "Verif.Props.SoundArchiveObject.archive_objects_resave_partial",
    "Verif.Props.SoundArchiveObject.archive_objects_resave_iff",
    "Verif.Props.SoundArchiveObject.archive_objects_settle",
    "Verif.Props.SoundArchiveObject.objects_resave_differ"
   ],
   "note": "False in general: objects_resave_differ is a witness. The exact condition and what happens otherwise are proved."
  },
  {
   "property": "C120",
   "status": "proved",
   "theorems": [
    "Verif.Props.Files.file_error",
    "Verif.Props.Files.file_ok",
    "Verif.Props.Files.program_spares",
    "Verif.Props.Files.program_content"
   ],
   "note": ""
  },
  {
   "property": "C121",
   "status": "partial",
   "theorems": [
    "Verif.Props.Files.file_missing",
    "Verif.Props.Files.lz10_file",
    "Verif.Props.Files.compress_from_file",
    "Verif.Props.Files.code_file",
    "Verif.Props.Files.bnbl_file",
    "Verif.Props.Files.bncl_file",
    "Verif.Props.Files.bmg_file",
    "Verif.Props.Files.palette_file",
    "Verif.Props.Files.tiles_file",
    "Verif.Props.Files.tilemap_file",
    "Verif.Props.Files.narc_file",
    "Verif.Props.Files.main_code_file",
    "Verif.Props.Files.rom_file",
    "Verif.Props.Files.sdat_file",
    "Verif.Props.Files.swav_file",
    "Verif.Props.Files.sseq_file",
    "Verif.Props.Files.strm_file",
    "Verif.Props.Files.ssar_file",
    "Verif.Props.Files.sbnk_file",
    "Verif.Props.Files.swar_file_partial",
    "Verif.Props.Files.swar_file_attribute_lost"
   ],
   "note": "Proved for every class but SWAR, whose fromFile drops unk02 (swar_file_attribute_lost); its waves come back (swar_file_partial)."
  },
  {
   "property": "C122",
   "status": "proved",
   "theorems": [
    "Verif.Props.Files.tool_target_iff",
    "Verif.Props.Files.tool_overwrites_iff",
    "Verif.Props.Files.lz10_tool_roundtrip",
    "Verif.Props.Files.code_tool_roundtrip"
   ],
   "note": ""
  },
  {
   "property": "C123",
   "status": "partial",
   "theorems": [
    "Verif.Props.Files.from_compressed_partial",
    "Verif.Props.Files.from_compressed_twice"
   ],
   "note": "False in general: from_compressed_twice is a witness."
  },
  {
   "property": "C124",
   "status": "proved",
   "theorems": [
    "Verif.Props.Float.round53_spec",
    "Verif.Props.Float.wave_time",
    "Verif.Props.Float.stream_time",
    "Verif.Props.Float.wave_time_fits",
    "Verif.Props.Float.stream_time_fits",
    "Verif.Props.Float.saveSWAV_eq",
    "Verif.Props.Float.swav_update_time_iff",
    "Verif.Props.Float.strm_save_plain",
    "Verif.Props.Float.strm_update_time",
    "Verif.Props.Float.strm_update_time_iff"
   ],
   "note": ""
  },
  {
   "property": "C125",
   "status": "proved",
   "theorems": [
    "Verif.Props.LzGreedy.greedy_exists_unique",
    "Verif.Props.LzGreedy.kept_exists_unique",
    "Verif.Props.LzGreedy.lz10_compress_bytes",
    "Verif.Props.LzGreedy.lz10_compress_length",
    "Verif.Props.LzGreedy.lz10_compress_bounds",
    "Verif.Props.LzGreedy.code_compress_bytes",
    "Verif.Props.LzGreedy.code_compress_arm9",
    "Verif.Props.LzGreedy.code_compress_stream",
    "Verif.Props.LzGreedy.code_compress_length"
   ],
   "note": ""
  },
  {
   "property": "C126",
   "status": "partial",
   "theorems": [
    "Verif.Props.MusicPlay.minify_played_partial",
    "Verif.Props.MusicPlay.minify_orderly",
    "Verif.Props.MusicPlay.sseqs_orderly",
    "Verif.Props.MusicPlay.song_orderly",
    "Verif.Props.MusicPlay.song_no_bank",
    "Verif.Props.MusicPlay.sseq_equivalent",
    "Verif.Props.MusicPlay.sseq_unparsed",
    "Verif.Props.MusicPlay.minify_default_instrument",
    "Verif.Props.MusicPlay.minify_subroutine",
    "Verif.Props.MusicPlay.minify_random_duration"
   ],
   "note": "False in general: the last three are witnesses. Proved under the condition that the notes played are also listed with their instrument, and from it for orderly sequences; limited to one wave archive (C68 has witnesses with two)."
  },
  {
   "property": "C127",
   "status": "partial",
   "theorems": [
    "Verif.Props.Repr.value_unique",
    "Verif.Props.Repr.repr_touchArea",
    "Verif.Props.Repr.repr_bnbl",
    "Verif.Props.Repr.repr_imagePosition",
    "Verif.Props.Repr.repr_bncl",
    "Verif.Props.Repr.repr_folder",
    "Verif.Props.Repr.repr_narc_partial",
    "Verif.Props.Repr.repr_narc_many",
    "Verif.Props.Repr.repr_overlay_partial",
    "Verif.Props.Repr.repr_overlay_uncompressed_partial",
    "Verif.Props.Repr.repr_overlay_long",
    "Verif.Props.Repr.repr_section_long",
    "Verif.Props.Repr.repr_section",
    "Verif.Props.Repr.repr_mainCode_partial",
    "Verif.Props.Repr.repr_palette_partial",
    "Verif.Props.Repr.repr_message_partial",
    "Verif.Props.Repr.repr_bmg_partial",
    "Verif.Props.Repr.repr_seqPlayer",
    "Verif.Props.Repr.repr_streamPlayer",
    "Verif.Props.Repr.repr_note_partial",
    "Verif.Props.Repr.repr_groupEntry",
    "Verif.Props.Repr.repr_note_numbers",
    "Verif.Props.Repr.repr_groupEntry_numbers",
    "Verif.Props.Repr.repr_enum_names",
    "Verif.Props.Repr.repr_event_partial",
    "Verif.Props.Repr.repr_event_returns",
    "Verif.Props.Repr.repr_event_cycle",
    "Verif.Props.Repr.repr_enum_event",
    "Verif.Props.Repr.defaults",
    "Verif.Props.Repr.not_repr_evaluates"
   ],
   "note": "False in general (not_repr_evaluates). Proved for the classes and attribute values where it holds, mostly as equivalences. Data with a quote character (C49) is left out; further classes are in C136 and C143."
  },
  {
   "property": "C128",
   "status": "proved",
   "theorems": [
    "Verif.Props.Listing.folder_str",
    "Verif.Props.Listing.folder_str_tree",
    "Verif.Props.Listing.folder_str_ids",
    "Verif.Props.Listing.narc_str",
    "Verif.Props.Listing.narc_str_returns",
    "Verif.Props.Listing.not_tree_of_str"
   ],
   "note": "folder_str reads the text back; folder_str_tree says that the text determines the tree; folder_str_ids links the shown IDs to idOf; narc_str is about the previews. not_tree_of_str shows why names with spaces in front are left out."
  },
  {
   "property": "C129",
   "status": "partial",
   "theorems": [
    "Verif.Props.EventText.sseq_str_partial",
    "Verif.Props.EventText.sseq_str_unparsed",
    "Verif.Props.EventText.track_str_partial",
    "Verif.Props.EventText.numbered_save",
    "Verif.Props.EventText.same_str_partial",
    "Verif.Props.EventText.portamento_str",
    "Verif.Props.EventText.ssar_unnamed",
    "Verif.Props.EventText.sseq_str_lost"
   ],
   "note": "False of the code in general: a portamento on/off event with a value other than 0 and 1 prints like a portamento event (portamento_str), and of several unnamed sequences of an SSAR only the last is marked (ssar_unnamed). Without such portamento events the printed SSEQ can be read back (sseq_str_partial) and saves as the same bytes (numbered_save, same_str_partial)."
  },
  {
   "property": "C130",
   "status": "proved",
   "theorems": [
    "Verif.Props.MusicLoop.song_loop",
    "Verif.Props.MusicLoop.song_loop_error",
    "Verif.Props.MusicLoop.song_loop_iff",
    "Verif.Props.MusicLoop.song_loop_again",
    "Verif.Props.MusicLoop.song_loop_not_undone",
    "Verif.Props.MusicLoop.loop_negative_end"
   ],
   "note": ""
  },
  {
   "property": "C131",
   "status": "proved",
   "theorems": [
    "Verif.Props.Build.swav_built",
    "Verif.Props.Build.swav_default",
    "Verif.Props.Build.swav_new",
    "Verif.Props.Build.swar_built",
    "Verif.Props.Build.strm_built",
    "Verif.Props.Build.sbnk_built",
    "Verif.Props.Build.sbnk_default",
    "Verif.Props.Build.sseq_built",
    "Verif.Props.Build.ssar_built",
    "Verif.Props.Build.texture_built",
    "Verif.Props.Build.texture_size",
    "Verif.Props.Build.palette_built",
    "Verif.Props.Build.nsbtx_built",
    "Verif.Props.Build.tile_built",
    "Verif.Props.Build.tile_default",
    "Verif.Props.Build.tilemap_tile_built",
    "Verif.Props.Build.bnbl_built",
    "Verif.Props.Build.bncl_built",
    "Verif.Props.Build.narc_built",
    "Verif.Props.Build.bmg_built",
    "Verif.Props.Build.tellable_short",
    "Verif.Props.Build.bmg_default",
    "Verif.Props.Build.built_defaults"
   ],
   "note": ""
  },
  {
   "property": "C132",
   "status": "proved",
   "theorems": [
    "Verif.Props.BnText.bnbl_str",
    "Verif.Props.BnText.bncl_str",
    "Verif.Props.BnText.bnbl_str_save",
    "Verif.Props.BnText.bnbl_str_topLeft",
    "Verif.Props.BnText.bncl_str_save",
    "Verif.Props.BnText.bnbl_str_loaded",
    "Verif.Props.BnText.bncl_str_loaded",
    "Verif.Props.BnText.str_lines",
    "Verif.Props.BnText.bnbl_drawing",
    "Verif.Props.BnText.bnbl_blank",
    "Verif.Props.BnText.bnbl_number",
    "Verif.Props.BnText.bnbl_drawing_eleven"
   ],
   "note": "bnbl_drawing is about the printed text itself; bnbl_drawing_eleven shows why it is limited to ten areas."
  },
  {
   "property": "C133",
   "status": "proved",
   "theorems": [
    "Verif.Props.LoadErrors.wrong_signature",
    "Verif.Props.LoadErrors.header_missing",
    "Verif.Props.LoadErrors.wrong_version",
    "Verif.Props.LoadErrors.accepted",
    "Verif.Props.LoadErrors.one_kind",
    "Verif.Props.LoadErrors.saved_refused",
    "Verif.Props.LoadErrors.raises_only",
    "Verif.Props.LoadErrors.raises_all",
    "Verif.Props.LoadErrors.bmg_encoding",
    "Verif.Props.LoadErrors.bmg_section",
    "Verif.Props.LoadErrors.rom_raises_only",
    "Verif.Props.LoadErrors.rom_raises_both"
   ],
   "note": "the data of a saved object are those that the models of save() return; the list of exceptions of a kind is in Spec/LoadErrors.lean, with outOfFuel for the loop over a message that does not end (C42); errors of the interpreter (MemoryError) are not modelled"
  },
  {
   "property": "C134",
   "status": "partial",
   "theorems": [
    "Verif.Props.Reload.reload",
    "Verif.Props.Reload.nsbtx_reload_partial",
    "Verif.Props.Reload.nsbmd_reload_partial",
    "Verif.Props.Reload.sbnk_reload_partial",
    "Verif.Props.Reload.nsbtx_reload_fails"
   ],
   "note": "Full for eight kinds; for textures, models and banks under the stated conditions, false of textures without the one on palettes (nsbtx_reload_fails).  BMGs and SDATs are the subject of C65, C89 and C119."
  },
  {
   "property": "C135",
   "status": "partial",
   "theorems": [
    "Verif.Props.Image.image_of_colors",
    "Verif.Props.Image.no_image",
    "Verif.Props.Image.image_lossless",
    "Verif.Props.Image.wide_colors",
    "Verif.Props.Image.tile_image",
    "Verif.Props.Image.single_image",
    "Verif.Props.Image.entry_image",
    "Verif.Props.Image.tiles_image_partial",
    "Verif.Props.Image.tilemap_image_partial",
    "Verif.Props.Image.tiles_image_incomplete",
    "Verif.Props.Image.texture_image",
    "Verif.Props.Image.texture_image_never"
   ],
   "note": "Grids of tiles: for complete rows; false for others (tiles_image_incomplete, C67).  Textures: for palettes of 16-bit numbers; with a Palette object no image is made (texture_image_never, C76)."
  },
  {
   "property": "C136",
   "status": "partial",
   "theorems": [
    "Verif.Props.ReprSound.repr_swav_partial",
    "Verif.Props.ReprSound.repr_waveType",
    "Verif.Props.ReprSound.repr_swar_partial",
    "Verif.Props.ReprSound.repr_swar_value",
    "Verif.Props.ReprSound.repr_strm_partial",
    "Verif.Props.ReprSound.repr_instrument_partial",
    "Verif.Props.ReprSound.repr_sbnk_partial",
    "Verif.Props.ReprSound.repr_sbnk_usual",
    "Verif.Props.ReprSound.repr_sseq_partial",
    "Verif.Props.ReprSound.repr_sseq_unparsed_partial",
    "Verif.Props.ReprSound.repr_sseq_unparsed",
    "Verif.Props.ReprSound.repr_texture_partial",
    "Verif.Props.ReprSound.repr_sound_false"
   ],
   "note": "The full statement is false (repr_sound_false); the conditions under which an object evaluates back are exact, for data without quote bytes."
  },
  {
   "property": "C137",
   "status": "proved",
   "theorems": [
    "Verif.Props.MusicTracks.song_saves",
    "Verif.Props.MusicTracks.song_single",
    "Verif.Props.MusicTracks.song_several",
    "Verif.Props.MusicTracks.song_ids",
    "Verif.Props.MusicTracks.ended_iff"
   ],
   "note": ""
  },
  {
   "property": "C138",
   "status": "proved",
   "theorems": [
    "Verif.Props.Nested.write_read",
    "Verif.Props.Nested.write_prefix",
    "Verif.Props.Nested.write_apart"
   ],
   "note": ""
  },
  {
   "property": "C139",
   "status": "proved",
   "theorems": [
    "Verif.Props.Summary.section_str",
    "Verif.Props.Summary.main_code_str",
    "Verif.Props.Summary.overlay_str",
    "Verif.Props.Summary.rom_str",
    "Verif.Props.Summary.message_str",
    "Verif.Props.Summary.message_str_injective",
    "Verif.Props.Summary.message_str_ambiguous",
    "Verif.Props.Summary.bmg_str",
    "Verif.Props.Summary.texture_str",
    "Verif.Props.Summary.palette_str",
    "Verif.Props.Summary.swav_str",
    "Verif.Props.Summary.swar_str",
    "Verif.Props.Summary.strm_str",
    "Verif.Props.Summary.note_str",
    "Verif.Props.Summary.instrument_str",
    "Verif.Props.Summary.region_str",
    "Verif.Props.Summary.sbnk_str",
    "Verif.Props.Summary.seqPlayer_str",
    "Verif.Props.Summary.streamPlayer_str",
    "Verif.Props.Summary.groupEntry_str_ok",
    "Verif.Props.Summary.groupEntry_str",
    "Verif.Props.Summary.ssarSequence_str",
    "Verif.Props.Summary.sdat_str",
    "Verif.Props.Summary.music_str"
   ],
   "note": ""
  },
  {
   "property": "C140",
   "status": "proved",
   "theorems": [
    "Verif.Props.NewRom.header_standard",
    "Verif.Props.NewRom.new_saved"
   ],
   "note": ""
  },
  {
   "property": "C141",
   "status": "partial",
   "theorems": [
    "Verif.Props.Json.json_text",
    "Verif.Props.Json.json_followed",
    "Verif.Props.Json.json_ascii",
    "Verif.Props.Json.json_injective",
    "Verif.Props.Json.json_roundtrip_partial",
    "Verif.Props.Json.json_folders_fail",
    "Verif.Props.Json.json_by_hand"
   ],
   "note": "What is written is right for every table, but reading back is false for every table with a folder: convertDictToFilenamesTable calls list.append with two arguments (json_folders_fail). Missing in json_roundtrip_partial: those tables."
  },
  {
   "property": "C142",
   "status": "proved",
   "theorems": [
    "Verif.Props.Tools.fnttool_error",
    "Verif.Props.Tools.fnttool_ok",
    "Verif.Props.Tools.fnttool_table",
    "Verif.Props.Tools.fnttool_transfer",
    "Verif.Props.Tools.fnttool_returns",
    "Verif.Props.Tools.fnttool_refuses",
    "Verif.Props.Tools.lz10tool_ok",
    "Verif.Props.Tools.lz10tool_error",
    "Verif.Props.Tools.lz10tool_twice",
    "Verif.Props.Tools.narctool_never",
    "Verif.Props.Tools.narctool_error"
   ],
   "note": ""
  },
  {
   "property": "C143",
   "status": "partial",
   "theorems": [
    "Verif.Props.ReprArchive.repr_sequence_partial",
    "Verif.Props.ReprArchive.repr_sequence_ok",
    "Verif.Props.ReprArchive.repr_ssar_partial",
    "Verif.Props.ReprArchive.repr_ssar_unsavable",
    "Verif.Props.ReprArchive.repr_ssar_unparsed_partial",
    "Verif.Props.ReprArchive.repr_ssar_unparsed",
    "Verif.Props.ReprArchive.repr_sdat_never",
    "Verif.Props.ReprArchive.sdat_eval",
    "Verif.Props.ReprArchive.repr_rom_never",
    "Verif.Props.ReprArchive.repr_track_never",
    "Verif.Props.ReprArchive.repr_music_never"
   ],
   "note": "The full statement is false: the theorems ending in _never and repr_ssar_unparsed are counterexamples for whole classes. For sequences and archives of them the conditions are exact; data with quote bytes (C49) are left out."
  },
  {
   "property": "C144",
   "status": "partial",
   "theorems": [
    "Verif.Props.MinifyTwice.minify_twice_partial",
    "Verif.Props.MinifyTwice.song_minify_twice_partial",
    "Verif.Props.MinifyTwice.minify_twice_archives"
   ],
   "note": "False with several wave archives (minify_twice_archives), as waves get numbers over all archives. Proved for one archive and notes from 0 to 127."
  },
  {
   "property": "C145",
   "status": "proved",
   "theorems": [
    "Verif.Props.MoveTwice.move_compose",
    "Verif.Props.MoveTwice.move_again"
   ],
   "note": ""
  },
  {
   "property": "C146",
   "status": "proved",
   "theorems": [
    "Verif.Props.TrackLaws.initial_set_twice",
    "Verif.Props.TrackLaws.initial_set_same",
    "Verif.Props.TrackLaws.initial_set_undone",
    "Verif.Props.TrackLaws.initial_set_commute",
    "Verif.Props.TrackLaws.velocities_twice",
    "Verif.Props.TrackLaws.velocities_undone",
    "Verif.Props.TrackLaws.velocities_clamped_twice",
    "Verif.Props.TrackLaws.collapse_twice"
   ],
   "note": ""
  },
  {
   "property": "C147",
   "status": "proved",
   "theorems": [
    "Verif.Props.SaveTwice.overlay_twice",
    "Verif.Props.SaveTwice.overlay_raises",
    "Verif.Props.SaveTwice.saveOverlay_eq",
    "Verif.Props.SaveTwice.rom_twice",
    "Verif.Props.SaveTwice.rom_changes",
    "Verif.Props.SaveTwice.rom_spoiled",
    "Verif.Props.SaveTwice.saveRom_eq",
    "Verif.Props.SaveTwice.swav_twice",
    "Verif.Props.SaveTwice.swav_changes",
    "Verif.Props.SaveTwice.strm_twice",
    "Verif.Props.SaveTwice.strm_changes",
    "Verif.Props.SaveTwice.music_twice",
    "Verif.Props.SaveTwice.music_raises",
    "Verif.Props.SaveTwice.saveMusic_eq",
    "Verif.Props.SaveTwice.not_save_atomic"
   ],
   "note": "The theorems ending in _eq say that the functions with the object left behind are the ones of the other properties where they return."
  },
  {
   "property": "C148",
   "status": "partial",
   "theorems": [
    "Verif.Props.MinifySave.minify_saves",
    "Verif.Props.MinifySave.minify_loads_partial",
    "Verif.Props.MinifySave.minify_reload",
    "Verif.Props.MinifySave.not_minify_loads",
    "Verif.Props.MinifySave.minify_loads_garbage"
   ],
   "note": "Loading back is false in general: the last two are witnesses. minify_loads_partial says exactly when it holds. Saving is proved for banks of at most 64 KiB."
  },
  {
   "property": "C149",
   "status": "proved",
   "theorems": [
    "Verif.Props.SongFile.song_file",
    "Verif.Props.SongFile.song_file_saves",
    "Verif.Props.SongFile.song_file_dead"
   ],
   "note": "song_file_dead shows what happens outside of the conditions."
  },
  {
   "property": "C150",
   "status": "proved",
   "theorems": [
    "Verif.Props.SongArchive.song_in_rom"
   ],
   "note": ""
  },
  {
   "property": "C151",
   "status": "proved",
   "theorems": [
    "Verif.Props.MinifyArchive.minified_archive"
   ],
   "note": "The conditions of C126, C58 and C117 are hypotheses; where they fail, so may the claim, see there."
  },
  {
   "property": "C152",
   "status": "partial",
   "theorems": [
    "Verif.Props.ArchiveText.ssar_str_partial",
    "Verif.Props.ArchiveText.ssar_str_unparsed_partial",
    "Verif.Props.ArchiveText.same_ssar_partial",
    "Verif.Props.ArchiveText.ssar_comma",
    "Verif.Props.ArchiveText.ssar_str_lost"
   ],
   "note": "Missing: names with comma, colon, bracket or line break, for which it is false (ssar_comma), unnamed sequences (see C129) and portamento events that print alike (C129). What is printed of a sequence is its name and beginning only, not its bank, volume and priority."
  },
  {
   "property": "C153",
   "status": "proved",
   "theorems": [
    "Verif.Props.MusicInit.song_empty",
    "Verif.Props.MusicInit.song_single",
    "Verif.Props.MusicInit.song_no_events",
    "Verif.Props.MusicInit.song_lost_event",
    "Verif.Props.MusicInit.song_tracks",
    "Verif.Props.MusicInit.part_unique",
    "Verif.Props.MusicInit.song_complete"
   ],
   "note": "Track numbers are taken to be non-negative, as in all sequences that are loaded."
  },
  {
   "property": "C154",
   "status": "proved",
   "theorems": [
    "Verif.Props.SoundTools.test_completes",
    "Verif.Props.SoundTools.test_blocked",
    "Verif.Props.SoundTools.test_result",
    "Verif.Props.SoundTools.test_out",
    "Verif.Props.SoundTools.test_keeps",
    "Verif.Props.SoundTools.test_again",
    "Verif.Props.SoundTools.test_printed",
    "Verif.Props.SoundTools.test_raises",
    "Verif.Props.SoundTools.test_settled",
    "Verif.Props.SoundTools.main_failure",
    "Verif.Props.SoundTools.scale_file",
    "Verif.Props.SoundTools.scale_duration",
    "Verif.Props.SoundTools.examples_count",
    "Verif.Props.SoundTools.soundfont_empty"
   ],
   "note": "The folder is a parameter. Files and folders can be made and removed, and no name is there twice."
  },
  {
   "property": "C155",
   "status": "partial",
   "theorems": [
    "Verif.Props.SequenceEdit.events_edit_partial",
    "Verif.Props.SequenceEdit.sseq_edit_partial",
    "Verif.Props.SequenceEdit.sseq_pitch_partial",
    "Verif.Props.SequenceEdit.sseq_pitch_refused",
    "Verif.Props.SequenceEdit.sseq_settled_partial",
    "Verif.Props.SequenceEdit.ssar_edit_partial",
    "Verif.Props.SequenceEdit.sseq_edit_from_variable"
   ],
   "note": "Missing: sequences with from-variable events, for which it is false: such an event shares a byte with the event that follows (sseq_edit_from_variable); and archives with an empty sequence, which cannot be saved once parsed (C60)."
  },
  {
   "property": "C156",
   "status": "proved",
   "theorems": [
    "Verif.Props.Programs.search_prints",
    "Verif.Props.Programs.search_reached",
    "Verif.Props.Programs.search_complete",
    "Verif.Props.Programs.search_once",
    "Verif.Props.Programs.by_id",
    "Verif.Props.Programs.extract_ok",
    "Verif.Props.Programs.replace_ok",
    "Verif.Props.Programs.replace_result",
    "Verif.Props.Programs.failed",
    "Verif.Props.Programs.extract_replace",
    "Verif.Props.Programs.editNarc_result",
    "Verif.Props.Programs.editNarcInRom_result"
   ],
   "note": "search_reached and search_once are for trees in which no two files or folders of a folder have the same name, as is id_of_filename (C10). The tutorial on archives twice has NintendoDSRom('nsmb.nds') for NintendoDSRom.fromFile('nsmb.nds'); the programs are modelled with fromFile."
  },
  {
   "property": "C157",
   "status": "proved",
   "theorems": [
    "Verif.Props.Numbering.filename_of_id",
    "Verif.Props.Numbering.path_unique",
    "Verif.Props.Numbering.named_iff",
    "Verif.Props.Numbering.found_iff",
    "Verif.Props.Numbering.numbered_lookup",
    "Verif.Props.Numbering.numbered_names",
    "Verif.Props.Numbering.number_numbered",
    "Verif.Props.Numbering.narc_from_scratch",
    "Verif.Props.Numbering.rom_numbered",
    "Verif.Props.Numbering.not_distinct"
   ],
   "note": "Well-formed names are those of C10: not empty, without slashes, and different from each other within a folder. not_distinct shows that the first condition is needed: if a folder is left at firstID = 0, a path can lead to the ID of another file."
  },
  {
   "property": "C158",
   "status": "partial",
   "theorems": [
    "Verif.Props.Messages.bmg_changed_partial",
    "Verif.Props.Messages.bmg_scripts_lost",
    "Verif.Props.Messages.bmg_refused",
    "Verif.Props.Messages.putIntoRom_partial",
    "Verif.Props.Messages.changeInRom_partial",
    "Verif.Props.Messages.failed"
   ],
   "note": "Missing: for BMGs of which the byte order cannot be told from the length (C41), and for big-endian ones with scripts whose index is not 0 (C40), the statement is false and the theorems do not apply (Readable). For Shift-JIS the codec is a parameter of which Lawful and Strict are asked."
  },
  {
   "property": "C159",
   "status": "proved",
   "theorems": [
    "Verif.Props.RomHeader.header_image",
    "Verif.Props.RomHeader.header_saves",
    "Verif.Props.RomHeader.header_loaded",
    "Verif.Props.RomHeader.renamed",
    "Verif.Props.RomHeader.kept_unique",
    "Verif.Props.RomHeader.kept_self"
   ],
   "note": ""
  },
  {
   "property": "C160",
   "status": "proved",
   "theorems": [
    "Verif.Props.Drawing.redraw_result",
    "Verif.Props.Drawing.redraw_range",
    "Verif.Props.Drawing.redraw_i4",
    "Verif.Props.Drawing.redraw_i8",
    "Verif.Props.Drawing.draw_result",
    "Verif.Props.Drawing.recolor_result",
    "Verif.Props.Drawing.recolor_cases",
    "Verif.Props.Drawing.paint_result"
   ],
   "note": ""
  },
  {
   "property": "C161",
   "status": "proved",
   "theorems": [
    "Verif.Props.EditOrder.rom_replaced",
    "Verif.Props.EditOrder.rom_works",
    "Verif.Props.EditOrder.rom_same",
    "Verif.Props.EditOrder.rom_order",
    "Verif.Props.EditOrder.narc_replaced",
    "Verif.Props.EditOrder.narc_works",
    "Verif.Props.EditOrder.narc_same",
    "Verif.Props.EditOrder.narc_order",
    "Verif.Props.EditOrder.replaced_unique"
   ],
   "note": ""
  },
  {
   "property": "C162",
   "status": "proved",
   "theorems": [
    "Verif.Props.Adding.changeAt_some",
    "Verif.Props.Adding.name_added",
    "Verif.Props.Adding.folder_added",
    "Verif.Props.Adding.narc_add_file",
    "Verif.Props.Adding.rom_add_file",
    "Verif.Props.Adding.narc_add_folder",
    "Verif.Props.Adding.rom_add_folder"
   ],
   "note": ""
  },
  {
   "property": "C163",
   "status": "proved",
   "theorems": [
    "Verif.Props.NestedOrder.order_bytes",
    "Verif.Props.NestedOrder.order_rom"
   ],
   "note": ""
  },
  {
   "property": "C164",
   "status": "proved",
   "theorems": [
    "Verif.Props.SoundEdit.waves_in_rom",
    "Verif.Props.SoundEdit.instruments_in_rom",
    "Verif.Props.SoundEdit.stream_in_rom"
   ],
   "note": ""
  },
  {
   "property": "C165",
   "status": "proved",
   "theorems": [
    "Verif.Props.Renaming.narc_rename_file",
    "Verif.Props.Renaming.narc_rename_folder",
    "Verif.Props.Renaming.rom_rename_file",
    "Verif.Props.Renaming.rom_rename_folder"
   ],
   "note": ""
  },
  {
   "property": "C166",
   "status": "proved",
   "theorems": [
    "Verif.Props.Removing.narc_remove_name",
    "Verif.Props.Removing.narc_remove_folder",
    "Verif.Props.Removing.rom_remove_name",
    "Verif.Props.Removing.rom_remove_folder"
   ],
   "note": ""
  },
  {
   "property": "C167",
   "status": "proved",
   "theorems": [
    "Verif.Props.Patching.patch_code",
    "Verif.Props.Patching.patch_code_compressed",
    "Verif.Props.Patching.rom_patch",
    "Verif.Props.Patching.rom_patch_compressed"
   ],
   "note": ""
  },
  {
   "property": "C168",
   "status": "proved",
   "theorems": [
    "Verif.Props.Layouts.move_areas",
    "Verif.Props.Layouts.move_areas_cases",
    "Verif.Props.Layouts.move_images",
    "Verif.Props.Layouts.move_images_cases",
    "Verif.Props.Layouts.move_areas_in_game",
    "Verif.Props.Layouts.move_images_in_game"
   ],
   "note": ""
  },
  {
   "property": "C169",
   "status": "proved",
   "theorems": [
    "Verif.Props.Textures.retexture_result",
    "Verif.Props.Textures.repaint_keeps",
    "Verif.Props.Textures.recolour_keeps",
    "Verif.Props.Textures.retexture_works",
    "Verif.Props.Textures.retexture_in_game"
   ],
   "note": ""
  }
 ]
}

"""Writes MANIFEST.json from the table below (run from anywhere)."""
import json, os
ROOT = os.path.dirname(os.path.dirname(os.path.abspath(__file__)))
claims = []
def c(prop, status, theorems, note=""):
    claims.append({"property": prop, "status": status, "theorems": theorems.split(), "note": note})
L = "Verif.Props.Lz."
def ns(prefix, names):
    return " ".join(prefix + n for n in names.split())

c("C01", "proved", ns(L, "lz10_roundtrip"))
c("C02", "proved", ns(L, "lz10_compress_error_iff"))
c("C03", "proved", ns(L, "lz10_decompress_total lz10_decompress_refines_spec"))
c("C04", "proved", ns(L, "search_longest"))
c("C05", "proved", ns(L, "code_roundtrip_of_shorter"), "Compressed size below 2^24, the largest size the footer can hold.")
c("C06", "partial", ns(L, "code_compress_cases_partial code_compress_can_raise code_roundtrip_can_corrupt code_roundtrip_empty"),
  "False of the code: three witnesses are proved, and the partial theorem classifies every outcome below 16 MiB.")
c("C07", "partial", ns(L, "code_decompress_plain_partial code_decompress_raises"),
  "False of the code for lengths 5..35 that are not multiples of 4 (proved to raise); the partial theorem covers all other lengths.")
F = "Verif.Props.Fnt."
c("C08", "proved", ns(F, "fnt_roundtrip fnt_empty_name_lost"), "File names must be non-empty; fnt_empty_name_lost shows why.")
c("C09", "proved", ns(F, "fnt_save_ok_iff fnt_save_rejects"))
c("C10", "proved", ns(F, "id_of_filename"))
c("C11", "proved", ns(F, "idOf_iff subfolder_iff path_total getitem_str getitem_int"))
c("C53", "proved", ns(F, "fnt_load_total fnt_resave"))
N = "Verif.Props.Narc."
c("C12", "proved", ns(N, "narc_roundtrip"))
c("C13", "proved", ns(N, "narc_set_get narc_unknown_name"))
c("C14", "proved", ns(N, "narc_layout"))
U = "Verif.Props.Util."
c("C19", "proved", ns(U, "crc16_detects crc16_lt crc16_xor"))
c("C22", "proved", ns(U, "alignment_roundtrip alignment_unpack_proper topLeft_contains_anchor"))
c("C48", "proved", ns(U, "named_list_hit named_list_miss"))
c("C49", "partial", ns(U, "short_repr_partial short_repr_iff short_repr_printable short_repr_quote"),
  "False of the code for the byte 0x27 (short_repr_quote); exactly the data without that byte evaluates back (short_repr_iff).")
B = "Verif.Props.Bn."
c("C23", "proved", ns(B, "bnbl_roundtrip bnbl_save_iff bnbl_resave"))
c("C24", "proved", ns(B, "bncl_roundtrip bncl_save_iff bncl_resave"))
K = "Verif.Props.Color."
c("C20", "proved", ns(K, "pack_unpack_inverse expand_contract_inverse contract_closest luts_agree convert_valid convert_commutes convert_lossless"))
c("C21", "proved", ns(K, "palette_roundtrip palette_roundtrip_bytes"))
O = "Verif.Props.Overlay."
c("C15", "proved", ns(O, "overlay_table_roundtrip overlay_table_resave overlay_file_resave"))
c("C16", "proved", ns(O, "set_compressed set_verifyHash"))
c("C54", "proved", ns(O, "overlay_save_fields overlay_reopen overlay_reopen_compressed"))
M = "Verif.Props.MainCode."
c("C17", "proved", ns(M, "main_code_roundtrip main_code_pointer main_code_magic main_code_unaligned"),
  "main_code_unaligned shows that the hypothesis on lengths is needed.")
c("C18", "partial", ns(M, "main_code_without_settings_unsavable from_sections_unsavable"),
  "False of the code: proved that no file without code settings can be saved.")
c("C55", "proved", ns(M, "main_code_compressed_roundtrip"))
W = "Verif.Props.SoundWave."
c("C30", "proved", ns(W, "swav_roundtrip swav_save_updates swav_save_iff swav_file_resave"))
c("C31", "proved", ns(W, "swar_roundtrip swar_save_iff swar_save_length swar_file_resave"))
T = "Verif.Props.SoundStream."
c("C32", "proved", ns(T, "strm_roundtrip strm_inconsistent strm_block_position strm_unsavable"))
c("C33", "proved", ns(T, "group_entry_roundtrip group_entry_resave group_entry_bits group_entry_fromFlags group_roundtrip group_resave"))

Q = "Verif.Props.Sequence."
c("C25", "proved", ns(Q, "vlq_roundtrip vlq_too_big vlq_negative vlq_format"))
c("C26", "partial", ns(Q, "event_length_partial from_variable_length"),
  "False of the code for from-variable events, which declare 3 or 4 bytes and save 4 or 6 (from_variable_length); proved for all others.")
c("C27", "proved", ns(Q, "event_roundtrip event_roundtrip_refs"))
c("C28", "proved", ns(Q, "sequence_layout sequence_event_at sequence_jump sequence_call sequence_begin_track sequence_save_iff sequence_duplicate"),
  "sequence_duplicate shows that the events must be different objects.")
c("C29", "proved", ns(Q, "sseq_roundtrip sseq_parsed_save sseq_header"))
R = "Verif.Props.SequenceRead."
c("C56", "proved", ns(R, "read_total"))
c("C57", "proved", ns(R, "read_tiles read_save read_save_padded"))
c("C58", "proved", ns(R, "save_read save_read_complete"))
c("C59", "proved", ns("Verif.Props.Lz.", "code_decompress_appended code_decompress_appended_lost"))

A = "Verif.Props.SequenceArchive."
c("C52", "proved", ns(A, "ssar_save_iff ssar_roundtrip"))
c("C60", "partial", ns(A, "ssar_parse_save_partial ssar_parse_unsavable ssar_empty_parse"),
  "False of the code for archives with a sequence that has no first event: they cannot be saved after parsing (ssar_parse_unsavable). Proved when every sequence has a first event.")
c("C61", "proved", ns(A, "ssar_parsed_save ssar_header ssar_reparse"))

B = "Verif.Props.SoundBank."
c("C34", "partial", ns(B, "instrument_roundtrip_partial instrument_loadable instrument_resave empty_regional_lost zero_region_lost empty_range_unsavable"),
  "False of the code for regional instruments without regions or with a later region that ends at pitch 0, and for single notes of a type outside 1 to 15; proved for all others, and nothing else can be loaded.")
c("C35", "partial", ns(B, "bank_roundtrip_partial bank_roundtrip_rest bank_file_roundtrip"),
  "Holds exactly for the banks whose instruments C34 holds for; that includes all banks that come from files.")
c("C62", "proved", ns(B, "bank_load_total"))
c("C63", "proved", ns(B, "bank_resave"))
c("C64", "proved", ns(B, "bank_layout bank_sharing"))

M = "Verif.Props.Bmg."
c("C40", "partial", ns(M, "bmg_roundtrip_partial bmg_roundtrip_iff bmg_message_tokens bmg_scripts_big"),
  "False of the code for big-endian files with scripts, whose indices are lost (bmg_scripts_big), and zero instructions and (0, 0) labels are dropped; bmg_roundtrip_iff says exactly which BMGs come back. Python's Shift-JIS codec is a parameter with stated laws; UTF-16, UTF-8 and Windows-1252 are modelled and proved lawful.")
c("C41", "partial", ns(M, "bmg_byte_order_iff bmg_byte_order_short_partial bmg_byte_order_wrong"),
  "False of the code from 64 KiB on (bmg_byte_order_wrong); exact characterisation proved.")
c("C42", "partial", ns(M, "bmg_load_endless bmg_message_ends_partial bmg_message_endless bmg_load_settled"),
  "False of the code (bmg_load_endless); exact characterisation of the messages on which reading ends.")
c("C65", "partial", ns(M, "bmg_resave_partial"),
  "Big-endian files with non-zero script indices excluded, for which it is false (bmg_scripts_big).")
c("C66", "proved", ns(M, "bmg_layout"))

G = "Verif.Props.Graphics2D."
c("C43", "proved", ns(G, "tile_roundtrip tile_roundtrip_bytes tile_pixels tiles_roundtrip tiles_roundtrip_bytes tiles_mixed tilemap_entry tilemap_entry_value tilemap_entry_set tilemap_roundtrip tilemap_roundtrip_bytes"))
c("C44", "partial", ns(G, "put_get_partial tile_at tall_grid"),
  "False of the code for rows from number width on (tall_grid): y is compared with the width. Proved for all coordinates that the functions accept.")
c("C67", "partial", ns(G, "render_tile render_entry render_entry_i8 render_entry_tile render_tiles_partial render_tilemap_partial render_incomplete_row"),
  "False of the code when the last row is incomplete, where StopIteration is raised (render_incomplete_row); proved for complete rows.")

U = "Verif.Props.Music."
UE = "Verif.Props.MusicEdit."
UT = "Verif.Props.MusicTracks."
UM = "Verif.Props.MusicMinify."
c("C50", "partial", ns(UE, "edits_simultaneous_partial edits_commute edits_negative set_alone del_alone insert_alone"),
  "Proved for all edits with indices from 0 to the length of the list. Negative indices are not taken relative to the original list (edits_negative).")
c("C51", "proved", ns(U, "duration_of move_raises move_spec move_short move_largest move_exact move_edits move_onsets"))
c("C68", "partial", ns(UM, "minify_heard_partial minify_numbers minify_pcm_iff minify_psg_iff minify_keeps minify_waves minify_succeeds minify_no_archives minify_archives minify_psg"),
  "False of the code with more than one archive (minify_archives), with PSG definitions (minify_psg) and without archives (minify_no_archives); proved for PCM definitions in one archive. For any archives and types minify_numbers says what number a definition gets, and minify_pcm_iff and minify_psg_iff say exactly which notes keep their sound.")
c("C69", "proved", ns(U, "looped_iff loop_looped loop_track"))
c("C70", "partial", ns(U, "move_first_partial move_last move_not_first"),
  "Holds when the asked time is reached; false when the function stops short (move_not_first), where it is the last event at its time (move_last).")
c("C71", "partial", ns(UT, "music_roundtrip_partial music_open music_no_events music_empty_track music_needs_archives"),
  "Proved for songs without empty tracks whose first event does not begin a track; music_open says what comes back of any song with an event: empty tracks are lost, an empty track 0 comes back with another track's events (music_empty_track).")
c("C72", "proved", ns(UT, "velocities_clamped velocities_exact"))
c("C73", "proved", ns(UT, "initial_get initial_set initial_set_ok initial_delete initial_delete_again"))
c("C74", "proved", ns(UT, "collapse_tracks"))

IB = "Verif.Props.InfoBlock."
TX = "Verif.Props.Texture."
c("C45", "proved", ns(TX, "word_iff word_error word_roundtrip fields_roundtrip word_layout word_injective"))
c("C46", "proved", ns(IB, "roundtrip_iff load_saved loaded_name saves_iff size_field resave"))
c("C47", "proved", ns(TX, "nsbtx_roundtrip nsbtx_accepts empty_palette_spoils same_palettes_spoil short_data_spoils"),
  "Well formed means Representable; the three counterexamples show that its conditions on palettes and data lengths are needed.")
c("C75", "proved", ns(TX, "render_spec allowed_covered direct_spec"))
c("C76", "partial", ns(TX, "unprepared unknown_format paletted_never paletted_type_error texeled_no_colour direct_spec direct_render_partial"),
  "False of the code: the colour tables are never prepared by the library (unprepared), and even with tables a Palette holds tuples where the renderer needs numbers (paletted_never, texeled_no_colour). Direct colour textures, which need no palette, do render (direct_spec).")

RM = "Verif.Props.Rom."
c("C37", "proved", ns(RM, "rom_checksums rom_checksum_detects"))
c("C38", "partial", ns(RM, "rom_files rom_layout rom_files_once_partial rom_overlay_stored_twice rom_negative_id_stored_twice"),
  "Everything holds but 'exactly once': a file whose ID is twice in the overlay tables, or that a negative sorted ID refers to, is stored twice (both proved); otherwise it is stored once (rom_files_once_partial).")
c("C39", "proved", ns(RM, "rom_roundtrip"), "Names of at most 12 bytes that do not end in NUL; the other attributes are in C79.")
c("C77", "proved", ns(RM, "rom_save_iff"))
c("C78", "partial", ns(RM, "rom_update_capacity_partial rom_update_capacity_small"),
  "False of the code for images of at most 64 KiB, for which saving raises ValueError (rom_update_capacity_small); proved above that size.")
c("C79", "proved", ns(RM, "rom_signature rom_signature_roundtrip rom_no_signature rom_padding rom_post_data rom_post_data_padded rom_post_data_lost"))
c("C80", "proved", ns(RM, "rom_load_iff rom_load_parts rom_load_signature"))
c("C81", "proved", ns(RM, "rom_sorted_ids"))
c("C82", "proved", ns(RM, "rom_resave"))
c("C83", "proved", ns(RM, "rom_set_get rom_unknown_name"))

SA = "Verif.Props.SoundArchive."
c("C36", "proved", ns(SA, "file_id_shared file_id_own file_ids_stay files_once archive_sharing"))
c("C84", "proved", ns(SA, "archive_round_trip archive_files_exact"))
c("C85", "proved", ns(SA, "archive_file_padding archive_round_trip"))
c("C86", "proved", ns(SA, "archive_layout archive_block_headers archive_files"))
c("C87", "proved", ns(SA, "archive_load_files"))
c("C88", "proved", ns(SA, "archive_save_iff archive_load_no_save"),
  "The last condition makes an archive without names whose first sequence archive slot is empty loadable but not savable (archive_load_no_save).")
c("C89", "partial", ns(SA, "archive_resave_partial archive_resave_iff archive_resave_settles archive_resave_empty new_resave_longer single_resave_differs single_resave_twice_differs single_data_grows"),
  "False of the code: a new archive without files, or with one, differs after loading and saving (new_resave_longer, single_resave_differs). Proved: exactly when it holds (archive_resave_iff), two sufficient conditions (archive_resave_partial), and that nothing changes any more from the second loading on (archive_resave_settles).")

c("C90", "proved", ns(SA, "archive_load_items archive_load_files"))
NB = "Verif.Props.Nsbmd."
c("C91", "partial", ns(NB, "display_list_commands_partial display_list_total vec_test_misread"),
  "All commands but 0x72 (VEC_TEST), which takes one parameter word on the hardware and three in the library; what follows it is misread (vec_test_misread).")
c("C92", "proved", ns(NB, "load_blocks"))
c("C93", "proved", ns(NB, "save_iff save_layout no_model_block"))
c("C94", "proved", ns(NB, "model_round_trip import_export cut_block_grows"))
c("C95", "proved", ns("Verif.Props.NoteName.", "note_name_reads note_name_injective"))
c("C96", "proved", ns("Verif.Props.FormatBn.", "bnbl_load_iff bncl_load_iff bnbl_saved bncl_saved"))
c("C97", "proved", ns("Verif.Props.FormatSound.", "swav_load_iff swar_load_iff strm_load_iff swav_saved swar_saved strm_saved"))
c("C98", "proved", ns("Verif.Props.FormatCode.", "overlay_table_load_iff overlay_table_load"))
c("C99", "proved", ns("Verif.Props.FormatFnt.", "fnt_load_iff fnt_unique fnt_save_layout") + " " + ns("Verif.Props.FormatNarc.", "narc_load_iff narc_saved"))
c("C100", "proved", ns("Verif.Props.FormatHeader.", "swav_header swar_header strm_header sseq_header ssar_header sbnk_header nsbtx_header") + " " + ns("Verif.Props.FormatNarc.", "narc_saved"))
c("C101", "proved", ns("Verif.Props.FormatNsbmd.", "mdl0_load_iff"))
c("C102", "proved", ns("Verif.Props.FormatNsbtx.", "tex0_load_iff nsbtx_load_iff nsbmd_load_iff nsbtx_saved"))
c("C103", "proved", ns("Verif.Props.FormatSbnk.", "instrument_load_iff bank_load bank_loads_iff bank_load_iff") + " " + ns("Verif.Props.BankSearch.", "bank_search"))
c("C104", "proved", ns("Verif.Props.GuessInst.", "guess_best guess_too_long found_overlap"))
c("C105", "proved", ns("Verif.Props.BankOrder.", "bank_order hidden_saved hidden_lost"))
c("C106", "proved", ns("Verif.Props.FormatSseq.", "event_iff event_width event_width_short read_events saved_events sseq_load_iff ssar_load_iff"))
c("C107", "proved", ns("Verif.Props.SequencePlay.", "parsed_reachable direct_parsed raw_not_direct direct_reachable sub_back conditional_end_lost jumping_subroutine_lost"))
c("C108", "proved", ns("Verif.Props.FormatBmg.", "bmg_load_iff bmg_contents_unique saved_bmg"))
c("C109", "proved", ns("Verif.Props.FormatGraphics.", "unpack_bits pack_bits unpack255_bits convert_formats color_bytes palette_bytes palette_saved tiles_bytes tilemap_bytes tilemap_bytes_8"))
c("C110", "proved", ns("Verif.Props.LzAny.", "lz10_decompress_any lz10_decompress_trailing code_decompress_any"))
c("C111", "proved", ns("Verif.Props.FormatMainCode.", "settings_any main_code_any settings_search_raises"))
c("C112", "proved", ns("Verif.Props.FormatRom.", "rom_any rom_saved_bytes"))
c("C113", "proved", ns("Verif.Props.Crc.", "crc16_remainder"))
c("C114", "proved", ns("Verif.Props.SequenceObject.", "sseq_before_parse sseq_after_parse sseq_from_events sseq_assignment_lost ssar_before_parse ssar_after_parse ssar_from_events"))
c("C115", "proved", ns("Verif.Props.RomCode.", "rom_overlay_edit rom_overlay_edit7"))
c("C116", "proved", ns("Verif.Props.RomCode.", "rom_reload_code rom_set_reload rom_main_code rom_main_code7 rom_main_code_compressed"))
c("C117", "proved", ns("Verif.Props.SoundArchiveObject.", "archive_objects"))
c("C118", "proved", ns("Verif.Props.SoundArchiveObject.", "archive_objects_again"))
c("C119", "partial", ns("Verif.Props.SoundArchiveObject.", "archive_objects_resave_partial archive_objects_resave_iff archive_objects_settle objects_resave_differ"), "False in general: objects_resave_differ is a witness. The exact condition and what happens otherwise are proved.")
c("C120", "proved", ns("Verif.Props.Files.", "file_error file_ok program_spares program_content"))
c("C121", "partial", ns("Verif.Props.Files.", "file_missing lz10_file compress_from_file code_file bnbl_file bncl_file bmg_file palette_file tiles_file tilemap_file narc_file main_code_file rom_file sdat_file swav_file sseq_file strm_file ssar_file sbnk_file swar_file_partial swar_file_attribute_lost"), "Proved for every class but SWAR, whose fromFile drops unk02 (swar_file_attribute_lost); its waves come back (swar_file_partial).")
c("C122", "proved", ns("Verif.Props.Files.", "tool_target_iff tool_overwrites_iff lz10_tool_roundtrip code_tool_roundtrip"))
c("C123", "partial", ns("Verif.Props.Files.", "from_compressed_partial from_compressed_twice"), "False in general: from_compressed_twice is a witness.")
c("C124", "proved", ns("Verif.Props.Float.", "round53_spec wave_time stream_time wave_time_fits stream_time_fits saveSWAV_eq swav_update_time_iff strm_save_plain strm_update_time strm_update_time_iff"))
c("C125", "proved", ns("Verif.Props.LzGreedy.", "greedy_exists_unique kept_exists_unique lz10_compress_bytes lz10_compress_length lz10_compress_bounds code_compress_bytes code_compress_arm9 code_compress_stream code_compress_length"))
c("C126", "partial", ns("Verif.Props.MusicPlay.", "minify_played_partial minify_orderly sseqs_orderly song_orderly song_no_bank sseq_equivalent sseq_unparsed minify_default_instrument minify_subroutine minify_random_duration"), "False in general: the last three are witnesses. Proved under the condition that the notes played are also listed with their instrument, and from it for orderly sequences; limited to one wave archive (C68 has witnesses with two).")
c("C127", "partial", ns("Verif.Props.Repr.", "value_unique repr_touchArea repr_bnbl repr_imagePosition repr_bncl repr_folder repr_narc_partial repr_narc_many repr_overlay_partial repr_overlay_uncompressed_partial repr_overlay_long repr_section_long repr_section repr_mainCode_partial repr_palette_partial repr_message_partial repr_bmg_partial repr_seqPlayer repr_streamPlayer repr_note_partial repr_groupEntry repr_note_numbers repr_groupEntry_numbers repr_enum_names repr_event_partial repr_event_returns repr_event_cycle repr_enum_event defaults not_repr_evaluates"), "False in general (not_repr_evaluates). Proved for the classes and attribute values where it holds, mostly as equivalences. Data with a quote character (C49) is left out; further classes are in C136 and C143.")
c("C128", "proved", ns("Verif.Props.Listing.", "folder_str folder_str_tree folder_str_ids narc_str narc_str_returns not_tree_of_str"),
  "folder_str reads the text back; folder_str_tree says that the text determines the tree; folder_str_ids links the shown IDs to idOf; narc_str is about the previews. not_tree_of_str shows why names with spaces in front are left out.")
c("C129", "partial", ns("Verif.Props.EventText.", "sseq_str_partial sseq_str_unparsed track_str_partial numbered_save same_str_partial portamento_str ssar_unnamed sseq_str_lost"),
  "False of the code in general: a portamento on/off event with a value other than 0 and 1 prints like a portamento event (portamento_str), and of several unnamed sequences of an SSAR only the last is marked (ssar_unnamed). Without such portamento events the printed SSEQ can be read back (sseq_str_partial) and saves as the same bytes (numbered_save, same_str_partial).")
c("C130", "proved", ns("Verif.Props.MusicLoop.", "song_loop song_loop_error song_loop_iff song_loop_again song_loop_not_undone loop_negative_end"))
c("C131", "proved", ns("Verif.Props.Build.", "swav_built swav_default swav_new swar_built strm_built sbnk_built sbnk_default sseq_built ssar_built texture_built texture_size palette_built nsbtx_built tile_built tile_default tilemap_tile_built bnbl_built bncl_built narc_built bmg_built tellable_short bmg_default built_defaults"))
c("C132", "proved", ns("Verif.Props.BnText.", "bnbl_str bncl_str bnbl_str_save bnbl_str_topLeft bncl_str_save bnbl_str_loaded bncl_str_loaded str_lines bnbl_drawing bnbl_blank bnbl_number bnbl_drawing_eleven"),
  "bnbl_drawing is about the printed text itself; bnbl_drawing_eleven shows why it is limited to ten areas.")
c("C133", "proved", ns("Verif.Props.LoadErrors.", "wrong_signature header_missing wrong_version accepted one_kind saved_refused raises_only raises_all bmg_encoding bmg_section rom_raises_only rom_raises_both"),
  "the data of a saved object are those that the models of save() return; the list of exceptions of a kind is in Spec/LoadErrors.lean, with outOfFuel for the loop over a message that does not end (C42); errors of the interpreter (MemoryError) are not modelled")
c("C134", "partial", ns("Verif.Props.Reload.", "reload nsbtx_reload_partial nsbmd_reload_partial sbnk_reload_partial nsbtx_reload_fails"),
  "Full for eight kinds; for textures, models and banks under the stated conditions, false of textures without the one on palettes (nsbtx_reload_fails).  BMGs and SDATs are the subject of C65, C89 and C119.")
c("C135", "partial", ns("Verif.Props.Image.", "image_of_colors no_image image_lossless wide_colors tile_image single_image entry_image tiles_image_partial tilemap_image_partial tiles_image_incomplete texture_image texture_image_never"),
  "Grids of tiles: for complete rows; false for others (tiles_image_incomplete, C67).  Textures: for palettes of 16-bit numbers; with a Palette object no image is made (texture_image_never, C76).")
c("C136", "partial", ns("Verif.Props.ReprSound.", "repr_swav_partial repr_waveType repr_swar_partial repr_swar_value repr_strm_partial repr_instrument_partial repr_sbnk_partial repr_sbnk_usual repr_sseq_partial repr_sseq_unparsed_partial repr_sseq_unparsed repr_texture_partial repr_sound_false"),
  "The full statement is false (repr_sound_false); the conditions under which an object evaluates back are exact, for data without quote bytes.")
c("C137", "proved", ns("Verif.Props.MusicTracks.", "song_saves song_single song_several song_ids ended_iff"))
c("C138", "proved", ns("Verif.Props.Nested.", "write_read write_prefix write_apart"))
c("C139", "proved", ns("Verif.Props.Summary.", "section_str main_code_str overlay_str rom_str message_str message_str_injective message_str_ambiguous bmg_str texture_str palette_str swav_str swar_str strm_str note_str instrument_str region_str sbnk_str seqPlayer_str streamPlayer_str groupEntry_str_ok groupEntry_str ssarSequence_str sdat_str music_str"))
c("C140", "proved", ns("Verif.Props.NewRom.", "header_standard new_saved"))
c("C141", "partial", ns("Verif.Props.Json.", "json_text json_followed json_ascii json_injective json_roundtrip_partial json_folders_fail json_by_hand"), "What is written is right for every table, but reading back is false for every table with a folder: convertDictToFilenamesTable calls list.append with two arguments (json_folders_fail). Missing in json_roundtrip_partial: those tables.")
c("C142", "proved", ns("Verif.Props.Tools.", "fnttool_error fnttool_ok fnttool_table fnttool_transfer fnttool_returns fnttool_refuses lz10tool_ok lz10tool_error lz10tool_twice narctool_never narctool_error"))
c("C143", "partial", ns("Verif.Props.ReprArchive.", "repr_sequence_partial repr_sequence_ok repr_ssar_partial repr_ssar_unsavable repr_ssar_unparsed_partial repr_ssar_unparsed repr_sdat_never sdat_eval repr_rom_never repr_track_never repr_music_never"), "The full statement is false: the theorems ending in _never and repr_ssar_unparsed are counterexamples for whole classes. For sequences and archives of them the conditions are exact; data with quote bytes (C49) are left out.")
c("C144", "partial", ns("Verif.Props.MinifyTwice.", "minify_twice_partial song_minify_twice_partial minify_twice_archives"), "False with several wave archives (minify_twice_archives), as waves get numbers over all archives. Proved for one archive and notes from 0 to 127.")
c("C145", "proved", ns("Verif.Props.MoveTwice.", "move_compose move_again"))
c("C146", "proved", ns("Verif.Props.TrackLaws.", "initial_set_twice initial_set_same initial_set_undone initial_set_commute velocities_twice velocities_undone velocities_clamped_twice collapse_twice"))
c("C147", "proved", ns("Verif.Props.SaveTwice.", "overlay_twice overlay_raises saveOverlay_eq rom_twice rom_changes rom_spoiled saveRom_eq swav_twice swav_changes strm_twice strm_changes music_twice music_raises saveMusic_eq not_save_atomic"), "The theorems ending in _eq say that the functions with the object left behind are the ones of the other properties where they return.")
c("C148", "partial", ns("Verif.Props.MinifySave.", "minify_saves minify_loads_partial minify_reload not_minify_loads minify_loads_garbage"), "Loading back is false in general: the last two are witnesses. minify_loads_partial says exactly when it holds. Saving is proved for banks of at most 64 KiB.")
c("C149", "proved", ns("Verif.Props.SongFile.", "song_file song_file_saves song_file_dead"), "song_file_dead shows what happens outside of the conditions.")
c("C150", "proved", ns("Verif.Props.SongArchive.", "song_in_rom"), "")
c("C151", "proved", ns("Verif.Props.MinifyArchive.", "minified_archive"), "The conditions of C126, C58 and C117 are hypotheses; where they fail, so may the claim, see there.")
c("C152", "partial", ns("Verif.Props.ArchiveText.", "ssar_str_partial ssar_str_unparsed_partial same_ssar_partial ssar_comma ssar_str_lost"), "Missing: names with comma, colon, bracket or line break, for which it is false (ssar_comma), unnamed sequences (see C129) and portamento events that print alike (C129). What is printed of a sequence is its name and beginning only, not its bank, volume and priority.")
c("C153", "proved", ns("Verif.Props.MusicInit.", "song_empty song_single song_no_events song_lost_event song_tracks part_unique song_complete"), "Track numbers are taken to be non-negative, as in all sequences that are loaded.")
c("C154", "proved", ns("Verif.Props.SoundTools.", "test_completes test_blocked test_result test_out test_keeps test_again test_printed test_raises test_settled main_failure scale_file scale_duration examples_count soundfont_empty"), "The folder is a parameter. Files and folders can be made and removed, and no name is there twice.")
c("C155", "partial", ns("Verif.Props.SequenceEdit.", "events_edit_partial sseq_edit_partial sseq_pitch_partial sseq_pitch_refused sseq_settled_partial ssar_edit_partial sseq_edit_from_variable"), "Missing: sequences with from-variable events, for which it is false: such an event shares a byte with the event that follows (sseq_edit_from_variable); and archives with an empty sequence, which cannot be saved once parsed (C60).")
c("C156", "proved", ns("Verif.Props.Programs.", "search_prints search_reached search_complete search_once by_id extract_ok replace_ok replace_result failed extract_replace editNarc_result editNarcInRom_result"), "search_reached and search_once are for trees in which no two files or folders of a folder have the same name, as is id_of_filename (C10). The tutorial on archives twice has NintendoDSRom('nsmb.nds') for NintendoDSRom.fromFile('nsmb.nds'); the programs are modelled with fromFile.")
c("C157", "proved", ns("Verif.Props.Numbering.", "filename_of_id path_unique named_iff found_iff numbered_lookup numbered_names number_numbered narc_from_scratch rom_numbered not_distinct"), "Well-formed names are those of C10: not empty, without slashes, and different from each other within a folder. not_distinct shows that the first condition is needed: if a folder is left at firstID = 0, a path can lead to the ID of another file.")
c("C158", "partial", ns("Verif.Props.Messages.", "bmg_changed_partial bmg_scripts_lost bmg_refused putIntoRom_partial changeInRom_partial failed"), "Missing: for BMGs of which the byte order cannot be told from the length (C41), and for big-endian ones with scripts whose index is not 0 (C40), the statement is false and the theorems do not apply (Readable). For Shift-JIS the codec is a parameter of which Lawful and Strict are asked.")
c("C159", "proved", ns("Verif.Props.RomHeader.", "header_image header_saves header_loaded renamed kept_unique kept_self"))
c("C160", "proved", ns("Verif.Props.Drawing.", "redraw_result redraw_range redraw_i4 redraw_i8 draw_result recolor_result recolor_cases paint_result"))
c("C161", "proved", ns("Verif.Props.EditOrder.", "rom_replaced rom_works rom_same rom_order narc_replaced narc_works narc_same narc_order replaced_unique"))
c("C162", "proved", ns("Verif.Props.Adding.", "changeAt_some name_added folder_added narc_add_file rom_add_file narc_add_folder rom_add_folder"))
c("C163", "proved", ns("Verif.Props.NestedOrder.", "order_bytes order_rom"))
c("C164", "proved", ns("Verif.Props.SoundEdit.", "waves_in_rom instruments_in_rom stream_in_rom"))
c("C165", "proved", ns("Verif.Props.Renaming.", "narc_rename_file narc_rename_folder rom_rename_file rom_rename_folder"))
c("C166", "proved", ns("Verif.Props.Removing.", "narc_remove_name narc_remove_folder rom_remove_name rom_remove_folder"))
c("C167", "proved", ns("Verif.Props.Patching.", "patch_code patch_code_compressed rom_patch rom_patch_compressed"))
c("C168", "proved", ns("Verif.Props.Layouts.", "move_areas move_areas_cases move_images move_images_cases move_areas_in_game move_images_in_game"))
c("C169", "proved", ns("Verif.Props.Textures.", "retexture_result repaint_keeps recolour_keeps retexture_works retexture_in_game"))
claims.sort(key=lambda d: int(d["property"][1:]))
with open(os.path.join(ROOT, "MANIFEST.json"), "w") as f:
    json.dump({"claims": claims}, f, indent=1)
    f.write("\n")

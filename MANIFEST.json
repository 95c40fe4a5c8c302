{
 "claims": [
  {
   "property": "C01",
   "status": "proved",
   "theorems": [
    "Cbm.C01_windows_tile"
   ],
   "note": ""
  },
  {
   "property": "C02",
   "status": "proved",
   "theorems": [
    "Cbm.C02_write_succeeds",
    "Cbm.C02_write_read"
   ],
   "note": ""
  },
  {
   "property": "C03",
   "status": "proved",
   "theorems": [
    "Cbm.C03_write_result",
    "Cbm.C03_read_result",
    "Cbm.C03_failed_write_no_effect"
   ],
   "note": ""
  },
  {
   "property": "C04",
   "status": "proved",
   "theorems": [
    "Cbm.C04_read_only",
    "Cbm.C04_no_sector_write"
   ],
   "note": ""
  },
  {
   "property": "C05",
   "status": "proved",
   "theorems": [
    "Cbm.C05_accepts_exactly",
    "Cbm.C05_unambiguous",
    "Cbm.C05_detection"
   ],
   "note": ""
  },
  {
   "property": "C06",
   "status": "proved",
   "theorems": [
    "Cbm.C06_set_semantics",
    "Cbm.C06_counts",
    "Cbm.C06_count_recomputed"
   ],
   "note": ""
  },
  {
   "property": "C07",
   "status": "proved",
   "theorems": [
    "Cbm.C07_flush_read",
    "Cbm.C07_flush_frame",
    "Cbm.C07_flush_unmodified"
   ],
   "note": ""
  },
  {
   "property": "C08",
   "status": "proved",
   "theorems": [
    "Cbm.C08_result_valid"
   ],
   "note": ""
  },
  {
   "property": "C09",
   "status": "proved",
   "theorems": [
    "Cbm.C09_disk_full_exact",
    "Cbm.C09_first_block_cbm",
    "Cbm.C09_first_block",
    "Cbm.C09_first_block_reserved"
   ],
   "note": ""
  },
  {
   "property": "C10",
   "status": "proved",
   "theorems": [
    "Cbm.C10_total"
   ],
   "note": ""
  },
  {
   "property": "C11",
   "status": "proved",
   "theorems": [
    "Cbm.C11_directory_and_data_apart"
   ],
   "note": ""
  },
  {
   "property": "C12",
   "status": "proved",
   "theorems": [
    "Cbm.C12_blocks_free",
    "Cbm.C12_total_data_blocks"
   ],
   "note": ""
  },
  {
   "property": "C13",
   "status": "proved",
   "theorems": [
    "Cbm.C13_format"
   ],
   "note": ""
  },
  {
   "property": "C14",
   "status": "proved",
   "theorems": [
    "Cbm.C14_format_name",
    "Cbm.C14_write_header"
   ],
   "note": ""
  },
  {
   "property": "C15",
   "status": "proved",
   "theorems": [
    "Cbm.C15_walk_terminates"
   ],
   "note": ""
  },
  {
   "property": "C16",
   "status": "proved",
   "theorems": [
    "Cbm.C16_read_ok_iff",
    "Cbm.C16_loop_iff",
    "Cbm.C16_invalid_location_iff",
    "Cbm.C16_invalid_link_iff",
    "Cbm.C16_outcomes"
   ],
   "note": ""
  },
  {
   "property": "C17",
   "status": "proved",
   "theorems": [
    "Cbm.C17_reads",
    "Cbm.C17_pieces_join",
    "Cbm.C17_read_to_end"
   ],
   "note": ""
  },
  {
   "property": "C18",
   "status": "proved",
   "theorems": [
    "Cbm.C18_write_then_read",
    "Cbm.C18_succeeds_if_it_fits"
   ],
   "note": ""
  },
  {
   "property": "C19",
   "status": "proved",
   "theorems": [
    "Cbm.C19_append",
    "Cbm.C19_block_count"
   ],
   "note": ""
  },
  {
   "property": "C20",
   "status": "proved",
   "theorems": [
    "Cbm.C20_disk_full"
   ],
   "note": ""
  },
  {
   "property": "C21",
   "status": "proved",
   "theorems": [
    "Cbm.C21_append",
    "Cbm.C21_crash_points"
   ],
   "note": ""
  },
  {
   "property": "C22",
   "status": "proved",
   "theorems": [
    "Cbm.C22_decode_encode",
    "Cbm.C22_encode_decode",
    "Cbm.C22_bits"
   ],
   "note": ""
  },
  {
   "property": "C23",
   "status": "proved",
   "theorems": [
    "Cbm.C23_rewrite_identity",
    "Cbm.C23_write_parse",
    "Cbm.C23_record_length_dropped"
   ],
   "note": ""
  },
  {
   "property": "C24",
   "status": "proved",
   "theorems": [
    "Cbm.C24_name_roundtrip",
    "Cbm.C24_name_stripped",
    "Cbm.C24_name_too_long"
   ],
   "note": ""
  },
  {
   "property": "C25",
   "status": "proved",
   "theorems": [
    "Cbm.C25_created_is_found",
    "Cbm.C25_renamed_is_found",
    "Cbm.C25_names_stay_distinct",
    "Cbm.C25_padding_breaks_uniqueness"
   ],
   "note": ""
  },
  {
   "property": "C26",
   "status": "proved",
   "theorems": [
    "Cbm.C26_failed_create",
    "Cbm.C26_when"
   ],
   "note": ""
  },
  {
   "property": "C27",
   "status": "proved",
   "theorems": [
    "Cbm.C27_rename_changes_only_the_name",
    "Cbm.C27_failed_rename"
   ],
   "note": ""
  },
  {
   "property": "C28",
   "status": "proved",
   "theorems": [
    "Cbm.C28_delete"
   ],
   "note": ""
  },
  {
   "property": "C29",
   "status": "proved",
   "theorems": [
    "Cbm.C29_damaged_chain"
   ],
   "note": ""
  },
  {
   "property": "C30",
   "status": "proved",
   "theorems": [
    "Cbm.C30_listing",
    "Cbm.C30_listing_geos",
    "Cbm.C30_damaged_directory",
    "Cbm.C30_damaged_directory_is_left_alone",
    "Cbm.C30_first_free_slot",
    "Cbm.C30_new_block",
    "Cbm.C30_create_takes_the_slot"
   ],
   "note": ""
  },
  {
   "property": "C31",
   "status": "proved",
   "theorems": [
    "Cbm.C31_max_directory_entries",
    "Cbm.C31_directory_capacity"
   ],
   "note": ""
  },
  {
   "property": "C32",
   "status": "proved",
   "theorems": [
    "Cbm.C32_sectors_of_relative",
    "Cbm.C32_sectors_of_sequential",
    "Cbm.C32_sectors_of_vlir",
    "Cbm.C32_reports_exactly_the_violations",
    "Cbm.C32_empty_iff",
    "Cbm.C32_opened",
    "Cbm.C32_sectors_of_linear",
    "Cbm.C32_sectors_of_geos",
    "Cbm.C32_broken_directory"
   ],
   "note": ""
  },
  {
   "property": "C33",
   "status": "proved",
   "theorems": [
    "Cbm.C33_valid_after_every_history",
    "Cbm.C33_valid_from_any_disk"
   ],
   "note": ""
  },
  {
   "property": "C34",
   "status": "proved",
   "theorems": [
    "Cbm.C34_calls",
    "Cbm.C34_operations"
   ],
   "note": ""
  },
  {
   "property": "C35",
   "status": "proved",
   "theorems": [
    "Cbm.C35_interleaved_writers"
   ],
   "note": ""
  },
  {
   "property": "C36",
   "status": "proved",
   "theorems": [
    "Cbm.C36_image_determines_state",
    "Cbm.C36_continue",
    "Cbm.C36_after_flush",
    "Cbm.C36_after_delete",
    "Cbm.C36_after_rename"
   ],
   "note": ""
  },
  {
   "property": "C37",
   "status": "partial",
   "theorems": [
    "Cbm.C37_create_is_not_durable",
    "Cbm.C37_created_file_in_image_partial",
    "Cbm.C37_created_file_reads_empty_partial"
   ],
   "note": "False of the code as stated: C37_create_is_not_durable proves, for every reachable saved state, that the re-opened image is inconsistent after create_file. The part that holds (directory, header and contents in the image) is proved; the BAM part is refuted."
  },
  {
   "property": "C38",
   "status": "proved",
   "theorems": [
    "Cbm.C38_fenced_off",
    "Cbm.C38_delete_fails",
    "Cbm.C38_reread_keeps_handles",
    "Cbm.C38_format_keeps_handles"
   ],
   "note": ""
  },
  {
   "property": "C39",
   "status": "proved",
   "theorems": [
    "Cbm.C39_bam_listings",
    "Cbm.C39_bam_partition",
    "Cbm.C39_geometry_iterator",
    "Cbm.C39_format_iterator",
    "Cbm.C39_enumeration_exact"
   ],
   "note": ""
  },
  {
   "property": "C40",
   "status": "proved",
   "theorems": [
    "Cbm.C40_string_roundtrip",
    "Cbm.C40_second_conversion"
   ],
   "note": ""
  },
  {
   "property": "C41",
   "status": "proved",
   "theorems": [
    "Cbm.C41_positioned_write_read"
   ],
   "note": ""
  },
  {
   "property": "C42",
   "status": "proved",
   "theorems": [
    "Cbm.C42_records",
    "Cbm.C42_open_iff"
   ],
   "note": ""
  },
  {
   "property": "C43",
   "status": "partial",
   "theorems": [
    "Cbm.C43_zero_length_refuted",
    "Cbm.C43_short_side_sector_refuted",
    "Cbm.C43_returns_partial",
    "Cbm.C43_panics_iff_refuted"
   ],
   "note": "False of the code as stated: C43_panics_iff_refuted says exactly when opening panics (the side sectors end in one with fewer than sixteen bytes, or the file is in order but its record length is zero); C43_zero_length_refuted and C43_short_side_sector_refuted are the two cases. C43_returns_partial proves the claim for entries with a non-zero record length whose side sectors are long enough."
  },
  {
   "property": "C44",
   "status": "partial",
   "theorems": [
    "Cbm.C44_shifted_partial",
    "Cbm.C44_refuted"
   ],
   "note": "False of the code as stated: C44_refuted proves for every VLIR file with the usual index sector that record 0 is empty and record 1 is the first record. C44_shifted_partial says exactly which record each number gives."
  },
  {
   "property": "C45",
   "status": "partial",
   "theorems": [
    "Cbm.C45_first_read_partial",
    "Cbm.C45_small_reads_refuted",
    "Cbm.C45_reads_return"
   ],
   "note": "False of the code as stated: C45_small_reads_refuted proves for every exportable file that reads of at most 254 bytes repeat the beginning of the stream for ever. C45_first_read_partial proves that the first read, of any size, is correct; C45_reads_return that every read of every image returns."
  },
  {
   "property": "C46",
   "status": "partial",
   "theorems": [
    "Cbm.C46_parse_partial",
    "Cbm.C46_refuted"
   ],
   "note": "False of the code as stated: C46_refuted proves that writing back any parsed info block panics. C46_parse_partial proves the parsing."
  },
  {
   "property": "C47",
   "status": "proved",
   "theorems": [
    "Cbm.C47_geos_codes",
    "Cbm.C47_geos_codes_injective"
   ],
   "note": ""
  },
  {
   "property": "C48",
   "status": "proved",
   "theorems": [
    "Cbm.C48_rendering",
    "Cbm.C48_injective"
   ],
   "note": ""
  },
  {
   "property": "C49",
   "status": "proved",
   "theorems": [
    "Cbm.C49_lines",
    "Cbm.C49_every_byte_shown",
    "Cbm.C49_digits_injective",
    "Cbm.C49_injective"
   ],
   "note": ""
  },
  {
   "property": "C50",
   "status": "proved",
   "theorems": [
    "Cbm.C50_error_roundtrip",
    "Cbm.C50_foreign_errors",
    "Cbm.C50_kinds",
    "Cbm.C50_texts"
   ],
   "note": ""
  },
  {
   "property": "C51",
   "status": "partial",
   "theorems": [
    "Cbm.C51_loops_forever",
    "Cbm.C51_returns_partial"
   ],
   "note": "False of the code as stated: C51_loops_forever proves that wherever reading reports ChainLoop, opening a writer never returns. C51_returns_partial proves the claim for every other start location of every image."
  },
  {
   "property": "C52",
   "status": "partial",
   "theorems": [
    "Cbm.C52_second_delete_refuted",
    "Cbm.C52_stale_writer_refuted",
    "Cbm.C52_again_partial"
   ],
   "note": "False of the code as stated: C52_second_delete_refuted and C52_stale_writer_refuted show, for every reachable disk with a free slot and a free block, that a kept handle deletes or overwrites another file. C52_again_partial proves that a second delete with nothing in between is harmless."
  },
  {
   "property": "C53",
   "status": "partial",
   "theorems": [
    "Cbm.C53_create_refuted",
    "Cbm.C53_delete_refuted",
    "Cbm.C53_refused_partial"
   ],
   "note": "False of the code as stated: C53_create_refuted and C53_delete_refuted show the changed number of free blocks for every saved disk that is opened read-only. C53_refused_partial proves the claim for rename and for requests refused because of the name."
  },
  {
   "property": "C54",
   "status": "partial",
   "theorems": [
    "Cbm.C54_refuted",
    "Cbm.C54_read_only_partial"
   ],
   "note": "False of the code as stated: C54_refuted shows, for every reachable disk and every over-long name, that all files are gone after the request was rejected. C54_read_only_partial proves the claim for read-only images."
  },
  {
   "property": "C55",
   "status": "partial",
   "theorems": [
    "Cbm.C55_panics_iff_refuted",
    "Cbm.C55_returns_partial",
    "Cbm.C55_any_kind_partial",
    "Cbm.C55_info_block_refuted"
   ],
   "note": "False of the code as stated: C55_panics_iff_refuted says exactly when deleting an ordinary file panics (its chain visits a track without BAM entry) and C55_info_block_refuted gives a second cause for GEOS files. C55_returns_partial proves the claim for ordinary files of images whose tracks are all in the BAM, and C55_any_kind_partial for files of every kind whose info block, if any, can be in the BAM."
  },
  {
   "property": "C56",
   "status": "partial",
   "theorems": [
    "Cbm.C56_edit_partial",
    "Cbm.C56_stray_sector_refuted",
    "Cbm.C56_track_refuted",
    "Cbm.C56_arguments",
    "Cbm.C56_tracks_refuted",
    "Cbm.C56_command_partial"
   ],
   "note": "False of the code as stated: C56_stray_sector_refuted (a sector number beyond the end of the track can be freed and the map is then inconsistent, for every disk) and C56_track_refuted (tracks 36 to 40 panic on a 1541 disk). C56_arguments says which arguments are taken and C56_tracks_refuted that no track above 40 can be selected. C56_edit_partial proves the claim for sectors that exist on tracks that have a BAM entry."
  },
  {
   "property": "C57",
   "status": "proved",
   "theorems": [
    "Cbm.C57_delivers",
    "Cbm.C57_copy"
   ],
   "note": ""
  },
  {
   "property": "C58",
   "status": "proved",
   "theorems": [
    "Cbm.C58_shape_is_fixed"
   ],
   "note": ""
  },
  {
   "property": "C59",
   "status": "proved",
   "theorems": [
    "Cbm.C59_error_table_place",
    "Cbm.C59_error_table_untouched"
   ],
   "note": ""
  },
  {
   "property": "C60",
   "status": "partial",
   "theorems": [
    "Cbm.C60_short_tail_panics",
    "Cbm.C60_create_panics",
    "Cbm.C60_no_panic_partial",
    "Cbm.C60_far_tail_panics",
    "Cbm.C60_panics_iff_refuted"
   ],
   "note": "False of the code as stated: C60_panics_iff_refuted says exactly when placing an entry panics (a full directory whose last sector has a used size that is not a multiple of 32, or lies on a track without BAM entry), and C60_create_panics reaches it from a formatted disk. C60_no_panic_partial proves the claim everywhere else."
  },
  {
   "property": "C61",
   "status": "proved",
   "theorems": [
    "Cbm.C61_create",
    "Cbm.C61_delete",
    "Cbm.C61_rename"
   ],
   "note": ""
  },
  {
   "property": "C62",
   "status": "proved",
   "theorems": [
    "Cbm.C62_create",
    "Cbm.C62_format"
   ],
   "note": ""
  },
  {
   "property": "C63",
   "status": "partial",
   "theorems": [
    "Cbm.C63_command_partial",
    "Cbm.C63_commands_partial",
    "Cbm.C63_from_scratch_partial",
    "Cbm.C63_write_then_read_partial",
    "Cbm.C63_full_directory_refuted"
   ],
   "note": "False of the code as stated: C63_full_directory_refuted shows that a write which fails on a full disk with a full but growable directory leaves an image that does not validate. The _partial theorems prove the claim for every sequence of commands other than that case, files of type REL (C75), over-long disk names (C54) and reads whose buffers end before the file does."
  },
  {
   "property": "C64",
   "status": "partial",
   "theorems": [
    "Cbm.C64_refuted",
    "Cbm.C64_reported_partial"
   ],
   "note": "False of the code as stated: C64_refuted proves that append ends with an error for every image, file and data, because the image is opened read-only. C64_reported_partial says which error is reported and that the image is unchanged."
  },
  {
   "property": "C65",
   "status": "partial",
   "theorems": [
    "Cbm.C65_relative_partial",
    "Cbm.C65_sequential_partial",
    "Cbm.C65_vlir_partial",
    "Cbm.C65_side_sectors_lost_refuted",
    "Cbm.C65_info_block_lost_refuted"
   ],
   "note": "False of the code as stated: C65_side_sectors_lost_refuted and C65_info_block_lost_refuted prove that the image keeps side sectors and info blocks allocated, because the BAM is written before they are freed. C65_relative_partial, C65_sequential_partial and C65_vlir_partial prove the rest, and say exactly which blocks the image has free."
  },
  {
   "property": "C66",
   "status": "proved",
   "theorems": [
    "Cbm.C66_sequential",
    "Cbm.C66_vlir",
    "Cbm.C66_relative",
    "Cbm.C66_linear"
   ],
   "note": ""
  },
  {
   "property": "C67",
   "status": "proved",
   "theorems": [
    "Cbm.C67_row",
    "Cbm.C67_line",
    "Cbm.C67_unambiguous",
    "Cbm.C67_verbose",
    "Cbm.C67_columns",
    "Cbm.C67_wide_sizes_shift",
    "Cbm.C67_listing",
    "Cbm.C67_listing_fails",
    "Cbm.C67_same_listing",
    "Cbm.C67_files"
   ],
   "note": ""
  },
  {
   "property": "C68",
   "status": "proved",
   "theorems": [
    "Cbm.C68_unambiguous",
    "Cbm.C68_report",
    "Cbm.C68_report_fails",
    "Cbm.C68_same_report",
    "Cbm.C68_files"
   ],
   "note": ""
  },
  {
   "property": "C69",
   "status": "proved",
   "theorems": [
    "Cbm.C69_show",
    "Cbm.C69_line",
    "Cbm.C69_same_map",
    "Cbm.C69_files"
   ],
   "note": ""
  },
  {
   "property": "C70",
   "status": "proved",
   "theorems": [
    "Cbm.C70_dump",
    "Cbm.C70_same_dump",
    "Cbm.C70_file",
    "Cbm.C70_same_file",
    "Cbm.C70_file_fails",
    "Cbm.C70_files"
   ],
   "note": ""
  },
  {
   "property": "C71",
   "status": "proved",
   "theorems": [
    "Cbm.C71_places",
    "Cbm.C71_file",
    "Cbm.C71_distinct",
    "Cbm.C71_line",
    "Cbm.C71_listing",
    "Cbm.C71_brief",
    "Cbm.C71_files"
   ],
   "note": ""
  },
  {
   "property": "C72",
   "status": "proved",
   "theorems": [
    "Cbm.C72_text",
    "Cbm.C72_same_text"
   ],
   "note": ""
  },
  {
   "property": "C73",
   "status": "proved",
   "theorems": [
    "Cbm.C73_names",
    "Cbm.C73_listed",
    "Cbm.C73_argument"
   ],
   "note": ""
  },
  {
   "property": "C74",
   "status": "partial",
   "theorems": [
    "Cbm.C74_short_partial",
    "Cbm.C74_long_refuted",
    "Cbm.C74_endless_refuted",
    "Cbm.C74_not_geos_refuted",
    "Cbm.C74_ordinary_refuted",
    "Cbm.C74_not_found",
    "Cbm.C74_unchanged"
   ],
   "note": "False of the code as stated: C74_long_refuted proves that the output is longer than the stream whenever the stream is at least as long as the buffer (8192 bytes in std), C74_endless_refuted that the command never ends when a record is as large as the buffer, and C74_not_geos_refuted that other files lead to a panic. C74_short_partial proves the claim for streams shorter than the buffer."
  },
  {
   "property": "C75",
   "status": "partial",
   "theorems": [
    "Cbm.C75_relative_refuted",
    "Cbm.C75_reopens_partial"
   ],
   "note": "False of the code as stated: C75_relative_refuted shows that from every reachable state a file of type REL can be created but not opened by its name. C75_reopens_partial proves the claim for every other type."
  },
  {
   "property": "C76",
   "status": "proved",
   "theorems": [
    "Cbm.C76_next",
    "Cbm.C76_first"
   ],
   "note": ""
  },
  {
   "property": "C77",
   "status": "partial",
   "theorems": [
    "Cbm.C77_create_partial",
    "Cbm.C77_write_partial",
    "Cbm.C77_interleave_refuted"
   ],
   "note": "False of the code as stated: C77_interleave_refuted proves that on every newly formatted 1541 or 1571 disk a file of two blocks lies in sectors 0 and 1 of track 17, where the policy asks for a distance of ten or six. C77_create_partial proves the claim for the first block, and C77_write_partial says exactly which blocks any write takes (each as if it were the first of a file) and that no other file moves."
  },
  {
   "property": "C78",
   "status": "proved",
   "theorems": [
    "Cbm.C78_looking",
    "Cbm.C78_opening",
    "Cbm.C78_reading",
    "Cbm.C78_reading_geos",
    "Cbm.C78_validating",
    "Cbm.C78_opened",
    "Cbm.C78_kept"
   ],
   "note": ""
  },
  {
   "property": "C79",
   "status": "proved",
   "theorems": [
    "Cbm.C79_calls_return"
   ],
   "note": ""
  },
  {
   "property": "C80",
   "status": "partial",
   "theorems": [
    "Cbm.C80_new_file_partial",
    "Cbm.C80_existing_file_partial",
    "Cbm.C80_not_overwritten_refuted",
    "Cbm.C80_missing_refuted",
    "Cbm.C80_resized_partial",
    "Cbm.C80_formatted_partial",
    "Cbm.C80_foreign_geometry_refuted"
   ],
   "note": "False of the code as stated: C80_not_overwritten_refuted proves that without create_new an existing file of the right size is not changed at all, C80_missing_refuted that without create_new a missing file is an error, and C80_foreign_geometry_refuted that a refused geometry leaves a file behind. C80_new_file_partial and C80_existing_file_partial prove the claim with create_new, C80_resized_partial says what is done to an existing file, and C80_formatted_partial that formatting afterwards makes an empty disk in every case."
  },
  {
   "property": "C81",
   "status": "proved",
   "theorems": [
    "Cbm.C81_by_name",
    "Cbm.C81_by_size",
    "Cbm.C81_not_opened"
   ],
   "note": ""
  },
  {
   "property": "C82",
   "status": "proved",
   "theorems": [
    "Cbm.C82_only_this_file",
    "Cbm.C82_found_again"
   ],
   "note": ""
  },
  {
   "property": "C83",
   "status": "partial",
   "theorems": [
    "Cbm.C83_reading_partial",
    "Cbm.C83_taking_turns_partial",
    "Cbm.C83_second_disk_refuted"
   ],
   "note": "False of the code as stated: C83_second_disk_refuted proves that when one object has used up blocks since the other one was opened, a delete through that other one marks blocks of existing files as free on the image, because each object keeps and saves its own BAM. C83_reading_partial proves that each object sees at once the files the other one makes, and C83_taking_turns_partial that opening the image anew after the other object has saved is safe."
  },
  {
   "property": "C84",
   "status": "proved",
   "theorems": [
    "Cbm.C84_commands_return",
    "Cbm.C84_damaged",
    "Cbm.C84_geosread",
    "Cbm.C84_own_images"
   ],
   "note": ""
  },
  {
   "property": "C85",
   "status": "proved",
   "theorems": [
    "Cbm.C85_changes_only_its_own",
    "Cbm.C85_frees_only_its_own"
   ],
   "note": ""
  },
  {
   "property": "C86",
   "status": "proved",
   "theorems": [
    "Cbm.C86_stays_in_its_territory"
   ],
   "note": ""
  },
  {
   "property": "C87",
   "status": "proved",
   "theorems": [
    "Cbm.C87_others_are_untouched",
    "Cbm.C87_condition_is_needed"
   ],
   "note": ""
  },
  {
   "property": "C88",
   "status": "partial",
   "theorems": [
    "Cbm.C88_records_partial",
    "Cbm.C88_linear",
    "Cbm.C88_sequential_refuted"
   ],
   "note": "False of the code as stated: C88_sequential_refuted proves that every GEOS sequential file with a readable chain gives its content as the record of every index although it reports one record, because the lookup ignores the index. C88_records_partial proves the claim for linear, relative and VLIR files, and C88_linear says which record a linear file has."
  },
  {
   "property": "C89",
   "status": "proved",
   "theorems": [
    "Cbm.C89_delete_stays_clean"
   ],
   "note": ""
  },
  {
   "property": "C90",
   "status": "proved",
   "theorems": [
    "Cbm.C90_rename",
    "Cbm.C90_same_files"
   ],
   "note": ""
  },
  {
   "property": "C91",
   "status": "proved",
   "theorems": [
    "Cbm.C91_create",
    "Cbm.C91_rename",
    "Cbm.C91_delete",
    "Cbm.C91_stays_clean"
   ],
   "note": ""
  },
  {
   "property": "C92",
   "status": "proved",
   "theorems": [
    "Cbm.C92_writing",
    "Cbm.C92_saved",
    "Cbm.C92_fails_only_when_full",
    "Cbm.C92_new_file"
   ],
   "note": ""
  },
  {
   "property": "C93",
   "status": "proved",
   "theorems": [
    "Cbm.C93_reopens",
    "Cbm.C93_written",
    "Cbm.C93_new_file",
    "Cbm.C93_renamed",
    "Cbm.C93_deleted"
   ],
   "note": ""
  }
 ]
}
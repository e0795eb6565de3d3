{
 "claims": [
  {
   "property": "C01",
   "status": "proved",
   "theorems": [
    "Verif.Disk.C01_write_sector_read_back",
    "Verif.Disk.C01_write_sector_error"
   ],
   "note": ""
  },
  {
   "property": "C02",
   "status": "proved",
   "theorems": [
    "Verif.Disk.C02_read_sector_exact"
   ],
   "note": ""
  },
  {
   "property": "C03",
   "status": "proved",
   "theorems": [
    "Verif.Disk.C03_swizzle_moves_sectors"
   ],
   "note": ""
  },
  {
   "property": "C04",
   "status": "proved",
   "theorems": [
    "Verif.Disk.C04_named_orders_inverse",
    "Verif.Disk.C04_interleave"
   ],
   "note": ""
  },
  {
   "property": "C05",
   "status": "proved",
   "theorems": [
    "Verif.Disk.C05_swizzle_accepts_iff",
    "Verif.Disk.C05_nil_order_is_an_error"
   ],
   "note": "The doc comment's claim that a nil order leaves the image unchanged is false; C05_nil_order_is_an_error proves it is an error."
  },
  {
   "property": "C06",
   "status": "proved",
   "theorems": [
    "Verif.Cmd.C06_systems",
    "Verif.Disk.C06_open_write_back_identity"
   ],
   "note": ""
  },
  {
   "property": "C07",
   "status": "proved",
   "theorems": [
    "Verif.Disk.C07_auto_picks_first_match",
    "Verif.Disk.C07_explicit_choice_obeyed",
    "Verif.Disk.C07_no_candidate_order_is_an_error"
   ],
   "note": ""
  },
  {
   "property": "C08",
   "status": "proved",
   "theorems": [
    "Verif.Disk.C08_wrong_images_refused",
    "Verif.Disk.C08_13_sector_refused",
    "Verif.Disk.C08_hdv_opened_by_prodos"
   ],
   "note": ""
  },
  {
   "property": "C09",
   "status": "proved",
   "theorems": [
    "Verif.Disk.C09_reorder_involutive",
    "Verif.Disk.C09_reorder_places",
    "Verif.Disk.C09_do_to_po",
    "Verif.Disk.C09_reorder_command_round_trip"
   ],
   "note": ""
  },
  {
   "property": "C10",
   "status": "proved",
   "theorems": [
    "Verif.Disk.C10_reorder_uses_two_orders",
    "Verif.Disk.C10_explicit_flags_honoured",
    "Verif.Disk.C10_guess_from_extensions",
    "Verif.Disk.C10_path_ext"
   ],
   "note": ""
  },
  {
   "property": "C11",
   "status": "proved",
   "theorems": [
    "Verif.Dos3.C11_vtoc_bytes",
    "Verif.Dos3.C11_catalog_bytes",
    "Verif.Dos3.C11_tslist_bytes",
    "Verif.Dos3.C11_other_lengths"
   ],
   "note": ""
  },
  {
   "property": "C12",
   "status": "proved",
   "theorems": [
    "Verif.Dos3.C12_vtoc_value",
    "Verif.Dos3.C12_catalog_value",
    "Verif.Dos3.C12_tslist_value",
    "Verif.Dos3.C12_filedesc_value",
    "Verif.Dos3.C12_vtoc_stored",
    "Verif.Dos3.C12_vtoc_layout",
    "Verif.Layout.C12_layout_filedesc",
    "Verif.Layout.C12_layout_catalog",
    "Verif.Layout.C12_layout_tslist",
    "Verif.Layout.C12_layout_vtoc"
   ],
   "note": ""
  },
  {
   "property": "C13",
   "status": "proved",
   "theorems": [
    "Verif.Dos3.C13_is_free",
    "Verif.Dos3.C13_out_of_range"
   ],
   "note": "The doc comment of IsFree says sectors above 15 are reported as free; the code reports them as not free (C13_out_of_range states what the code does)."
  },
  {
   "property": "C14",
   "status": "proved",
   "theorems": [
    "Verif.Dos3.C14_validate",
    "Verif.Dos3.C14_rejects_with_error",
    "Verif.Dos3.C14_default"
   ],
   "note": ""
  },
  {
   "property": "C15",
   "status": "proved",
   "theorems": [
    "Verif.Dos3.C15_catalog",
    "Verif.Dos3.C15_catalog_complete",
    "Verif.Dos3.C15_shown"
   ],
   "note": ""
  },
  {
   "property": "C16",
   "status": "partial",
   "theorems": [
    "Verif.Dos3.C16_terminates_partial",
    "Verif.Dos3.C16_timeout_is_divergence",
    "Verif.Dos3.C16_violated"
   ],
   "note": "False in general: C16_violated gives a 143360-byte image whose catalog chain loops, on which reading never returns. Proved that it terminates whenever the chain does (C16_terminates_partial) and that a looping chain is the only way not to (C16_timeout_is_divergence)."
  },
  {
   "property": "C17",
   "status": "proved",
   "theorems": [
    "Verif.Dos3.C17_terminates",
    "Verif.Dos3.C17_revisit_is_error",
    "Verif.Dos3.C17_succeeds_iff"
   ],
   "note": ""
  },
  {
   "property": "C18",
   "status": "partial",
   "theorems": [
    "Verif.Dos3.C18_contents_partial",
    "Verif.Dos3.C18_all_holes",
    "Verif.Dos3.C18_violated"
   ],
   "note": "Proved whenever the last track/sector list names at least one sector; C18_all_holes says exactly what happens otherwise and C18_violated gives a disk."
  },
  {
   "property": "C19",
   "status": "partial",
   "theorems": [
    "Verif.Dos3.C19_text_partial",
    "Verif.Dos3.C19_text_all_zero",
    "Verif.Dos3.C19_basic_partial",
    "Verif.Dos3.C19_basic_long",
    "Verif.Dos3.C19_binary_partial",
    "Verif.Dos3.C19_binary_long",
    "Verif.Dos3.C19_other_types",
    "Verif.Dos3.C19_unreadable",
    "Verif.Dos3.C19_contents_size",
    "Verif.Dos3.C19_violated"
   ],
   "note": "Proved for text with a non-zero byte and for binary/BASIC files whose stored length fits; the other cases are characterised (C19_text_all_zero, C19_*_long) and C19_violated gives a disk on which reading crashes or invents bytes."
  },
  {
   "property": "C20",
   "status": "proved",
   "theorems": [
    "Verif.Dos3.C20_decode",
    "Verif.Dos3.C20_decode_deleted",
    "Verif.Dos3.C20_lookup",
    "Verif.Dos3.C20_unreadable"
   ],
   "note": ""
  },
  {
   "property": "C21",
   "status": "proved",
   "theorems": [
    "Verif.Supermon.C21_persist_load",
    "Verif.Supermon.C21_load_persist",
    "Verif.Supermon.C21_load"
   ],
   "note": ""
  },
  {
   "property": "C22",
   "status": "proved",
   "theorems": [
    "Verif.Supermon.C22_sectors_exact",
    "Verif.Supermon.C22_partition",
    "Verif.Supermon.C22_disjoint",
    "Verif.Supermon.C22_total",
    "Verif.Supermon.C22_by_file",
    "Verif.Supermon.C22_free_count",
    "Verif.Supermon.C22_free_conserved"
   ],
   "note": ""
  },
  {
   "property": "C23",
   "status": "proved",
   "theorems": [
    "Verif.Supermon.C23_write_read"
   ],
   "note": ""
  },
  {
   "property": "C24",
   "status": "proved",
   "theorems": [
    "Verif.Supermon.C24_write_frame"
   ],
   "note": ""
  },
  {
   "property": "C25",
   "status": "proved",
   "theorems": [
    "Verif.Supermon.C25_write_outcome"
   ],
   "note": ""
  },
  {
   "property": "C26",
   "status": "proved",
   "theorems": [
    "Verif.Supermon.C26_write_file_persisted",
    "Verif.Supermon.C26_operator_persisted"
   ],
   "note": ""
  },
  {
   "property": "C27",
   "status": "proved",
   "theorems": [
    "Verif.Supermon.C27_history_invariant"
   ],
   "note": ""
  },
  {
   "property": "C28",
   "status": "proved",
   "theorems": [
    "Verif.Supermon.C28_history_refinement",
    "Verif.Supermon.C28_expect_last_put"
   ],
   "note": "By DFxx name. For files 3 and 4 (which hold the symbol table) the theorem needs that no symbol is itself called DFxx, because Delete(\"DFxx\") also deletes a symbol of that name and rewrites the table."
  },
  {
   "property": "C29",
   "status": "proved",
   "theorems": [
    "Verif.Supermon.C29_delete",
    "Verif.Supermon.C29_delete_frees",
    "Verif.Supermon.C29_delete_unknown"
   ],
   "note": "Full for every name; deleting under a symbolic name also rewrites the symbol table files 3 and 4, which the theorem excludes explicitly."
  },
  {
   "property": "C30",
   "status": "partial",
   "theorems": [
    "Verif.Supermon.C30_roundtrip",
    "Verif.Supermon.C30_empty",
    "Verif.Supermon.C30_accepts_iff",
    "Verif.Supermon.C30_injective",
    "Verif.Supermon.C30_silently_drops",
    "Verif.Supermon.C30_violated"
   ],
   "note": "Round trip, acceptance and injectivity proved for all names; the clause that unrepresentable characters are rejected is false of the code (C30_violated: \"A-BC\" becomes \"ABC\"), and C30_silently_drops says exactly what happens instead."
  },
  {
   "property": "C31",
   "status": "proved",
   "theorems": [
    "Verif.Supermon.C31_write_read",
    "Verif.Supermon.C31_read_stable",
    "Verif.Supermon.C31_write_succeeds"
   ],
   "note": ""
  },
  {
   "property": "C32",
   "status": "proved",
   "theorems": [
    "Verif.Supermon.C32_add_self",
    "Verif.Supermon.C32_add_other",
    "Verif.Supermon.C32_add_fails_iff",
    "Verif.Supermon.C32_delete_found",
    "Verif.Supermon.C32_delete_self",
    "Verif.Supermon.C32_delete_other",
    "Verif.Supermon.C32_invariants",
    "Verif.Supermon.C32_history"
   ],
   "note": ""
  },
  {
   "property": "C33",
   "status": "partial",
   "theorems": [
    "Verif.Supermon.C33_exact",
    "Verif.Supermon.C33_chains_partial",
    "Verif.Supermon.C33_add_new",
    "Verif.Supermon.C33_violated"
   ],
   "note": "False in general: C33_violated. C33_exact: for every table read from a disk and every history of additions and deletions that has not spoilt it, the table after one more can be read again, once written, if and only if that change does not spoil it (Spoils, Spec/Fate.lean: a used entry is left linking to one of another hash or to itself). C33_chains_partial: a sufficient condition that is easier to check (SafeDelete). C103 says the same of the commands, C105 of sessions."
  },
  {
   "property": "C34",
   "status": "proved",
   "theorems": [
    "Verif.Supermon.C34_dfname_resolves",
    "Verif.Supermon.C34_dfname_injective",
    "Verif.Supermon.C34_resolves_iff",
    "Verif.Supermon.C34_resolution_total",
    "Verif.Supermon.C34_numeric_unique"
   ],
   "note": ""
  },
  {
   "property": "C35",
   "status": "partial",
   "theorems": [
    "Verif.Supermon.C35_violated",
    "Verif.Supermon.C35_put_get",
    "Verif.Supermon.C35_numeric",
    "Verif.Supermon.C35_dichotomy",
    "Verif.Supermon.C35_put_refuses"
   ],
   "note": "Proved for all names whose file is not 3 or 4 (the files of the symbol table), and for plain numbers without restriction. C35_violated: \"DF03:FOO\" loses the data. C35_dichotomy, for every disk and every name: either whatever is put under the name is what is read under it, or the file is 3 or 4 and what is read is always the same 4096 bytes (a half of the symbol table), whatever was put."
  },
  {
   "property": "C36",
   "status": "proved",
   "theorems": [
    "Verif.Supermon.C36_catalog",
    "Verif.Supermon.C36_no_system_entries"
   ],
   "note": ""
  },
  {
   "property": "C37",
   "status": "partial",
   "theorems": [
    "Verif.Supermon.C37_exact",
    "Verif.Supermon.C37_put_returns_partial",
    "Verif.Supermon.C37_violated_empty_data",
    "Verif.Supermon.C37_violated_fresh"
   ],
   "note": "Proved for non-empty data; C37_violated_empty_data and C37_violated_fresh show that empty data panics. C37_exact says exactly when PutFile does not return, on every disk that can be opened."
  },
  {
   "property": "C38",
   "status": "partial",
   "theorems": [
    "Verif.Supermon.C38_plain_partial",
    "Verif.Supermon.C38_compound",
    "Verif.Supermon.C38_errors",
    "Verif.Supermon.C38_violated"
   ],
   "note": "The code's condition is inverted: C38_violated. The exact behaviour is proved for every string."
  },
  {
   "property": "C39",
   "status": "proved",
   "theorems": [
    "Verif.Supermon.C39_plain",
    "Verif.Supermon.C39_compound",
    "Verif.Supermon.C39_many_colons",
    "Verif.Supermon.C39_exhaustive"
   ],
   "note": ""
  },
  {
   "property": "C40",
   "status": "proved",
   "theorems": [
    "Verif.Layout.C40_layout_date",
    "Verif.Layout.C40_layout_descriptor",
    "Verif.Layout.C40_layout_volume_header",
    "Verif.Layout.C40_layout_subdirectory_header",
    "Verif.Layout.C40_layout_volume_key",
    "Verif.Layout.C40_layout_volume_block",
    "Verif.Layout.C40_layout_subdirectory_key",
    "Verif.Layout.C40_layout_subdirectory_block",
    "Verif.Prodos.C40_bytes",
    "Verif.Prodos.C40_volume_key",
    "Verif.Prodos.C40_volume_block",
    "Verif.Prodos.C40_subdirectory_key",
    "Verif.Prodos.C40_subdirectory_block",
    "Verif.Prodos.C40_parts",
    "Verif.Prodos.C40_volume_key_layout",
    "Verif.Prodos.C40_descriptor_layout"
   ],
   "note": ""
  },
  {
   "property": "C41",
   "status": "proved",
   "theorems": [
    "Verif.Prodos.C41_mark",
    "Verif.Prodos.C41_history",
    "Verif.Prodos.C41_not_covered"
   ],
   "note": ""
  },
  {
   "property": "C42",
   "status": "partial",
   "theorems": [
    "Verif.Prodos.C42_new_partial",
    "Verif.Prodos.C42_violated"
   ],
   "note": "Proved for every size up to 61440 blocks; C42_violated shows that every size from 61441 to 65535 panics (16-bit overflow in the number of bit map blocks)."
  },
  {
   "property": "C43",
   "status": "partial",
   "theorems": [
    "Verif.Prodos.C43_read_partial",
    "Verif.Prodos.C43_violated",
    "Verif.Prodos.C43_violated_large"
   ],
   "note": "The number of blocks read is the size divided by 4096 twice: C43_violated, C43_violated_large. C43_read_partial says exactly what is read."
  },
  {
   "property": "C44",
   "status": "proved",
   "theorems": [
    "Verif.Prodos.C44_write",
    "Verif.Prodos.C44_read_back",
    "Verif.Prodos.C44_new_bitmaps"
   ],
   "note": ""
  },
  {
   "property": "C45",
   "status": "partial",
   "theorems": [
    "Verif.Prodos.C45_get",
    "Verif.Prodos.C45_violated",
    "Verif.Prodos.C45_violated_example",
    "Verif.Prodos.C45_others_partial"
   ],
   "note": "Set has a value receiver and does not change the index block: C45_violated. Get is proved against the layout for every index block."
  },
  {
   "property": "C46",
   "status": "proved",
   "theorems": [
    "Verif.Prodos.C46_exact",
    "Verif.Prodos.C46_root",
    "Verif.Prodos.C46_subdirectory",
    "Verif.Prodos.C46_unknown_path",
    "Verif.Prodos.C46_complete"
   ],
   "note": "Exactly which listings are possible, for images below 64 GiB: C46_exact."
  },
  {
   "property": "C47",
   "status": "partial",
   "theorems": [
    "Verif.Prodos.C47_can_be_endless",
    "Verif.Prodos.C47_is_endless",
    "Verif.Prodos.C47_always_another",
    "Verif.Prodos.C47_violated_by_order",
    "Verif.Prodos.C47_terminates_partial",
    "Verif.Prodos.C47_violated_chain",
    "Verif.Prodos.C47_violated_self",
    "Verif.Prodos.C47_violated_parent"
   ],
   "note": "False of the code: C47_violated_chain, C47_violated_self and C47_violated_parent give three volumes on which reading never ends, and on the volume of C47_violated_by_order reading never ends or fails, depending on the order in which a Go map is gone through. Proved for every image without such a loop (C47_terminates_partial). Exact conditions, for images under 64 GiB: C47_can_be_endless says on which volumes reading may never end, C47_is_endless on which it never ends whatever the order of the map, C47_always_another when there is always another directory to read."
  },
  {
   "property": "C48",
   "status": "proved",
   "theorems": [
    "Verif.Prodos.C48_exact",
    "Verif.Prodos.C48_success",
    "Verif.Prodos.C48_root",
    "Verif.Prodos.C48_lookup",
    "Verif.Prodos.C48_needs_distinct_paths"
   ],
   "note": "Distinct full paths are needed, as the property says: C48_needs_distinct_paths. Exactly when the order decides what is shown, for images below 64 GiB: C48_exact."
  },
  {
   "property": "C49",
   "status": "proved",
   "theorems": [
    "Verif.Prodos.C49_marshal",
    "Verif.Prodos.C49_unmarshal",
    "Verif.Prodos.C49_round_trip"
   ],
   "note": ""
  },
  {
   "property": "C50",
   "status": "partial",
   "theorems": [
    "Verif.Applesoft.C50_with_header",
    "Verif.Applesoft.C50_without_header_partial",
    "Verif.Applesoft.C50_short_programs",
    "Verif.Applesoft.C50_violated",
    "Verif.Applesoft.C50_violated_empty",
    "Verif.Applesoft.C50_violated_location_zero",
    "Verif.Applesoft.C50_exact"
   ],
   "note": "With the length header: every program. Without it: every program whose first two bytes are not mistaken for a header (C50_short_programs gives a simple sufficient condition). C50_violated: a program without header that is mistaken for one with a header; C50_violated_empty, C50_violated_location_zero: the empty program and location 0. C50_exact: at addresses of at least 256 (Applesoft programs are at $801 or $3001), a program without the length decodes to its lines if and only if its first two bytes do not look like a length."
  },
  {
   "property": "C51",
   "status": "partial",
   "theorems": [
    "Verif.Applesoft.C51_terminates_partial",
    "Verif.Applesoft.C51_forward",
    "Verif.Applesoft.C51_violated_crash",
    "Verif.Applesoft.C51_violated_loop",
    "Verif.Applesoft.C51_exact",
    "Verif.Applesoft.C51_endless",
    "Verif.Applesoft.C51_crashes"
   ],
   "note": "False of the code: C51_violated_crash and C51_violated_loop show a panic and an endless loop. Proved exactly when each happens, for every file: C51_endless (never ends), C51_crashes (crashes), C51_exact (otherwise: lists exactly so many lines, or reports an error). C51_terminates_partial and C51_forward give simpler sufficient conditions for returning."
  },
  {
   "property": "C52",
   "status": "partial",
   "theorems": [
    "Verif.Integer.C52_with_header",
    "Verif.Integer.C52_without_header_partial",
    "Verif.Integer.C52_violated",
    "Verif.Integer.C52_exact"
   ],
   "note": "With the length header: every program. Without: every program not mistaken for one with a header; C52_violated is a valid program without header that crashes the decoder. C52_exact: a program without the length decodes to its lines if and only if its first two bytes do not look like a length."
  },
  {
   "property": "C53",
   "status": "partial",
   "theorems": [
    "Verif.Integer.C53_exact_partial",
    "Verif.Integer.C53_violated"
   ],
   "note": "Always ends; the inputs that panic are characterised exactly by C53_exact_partial; C53_violated is one."
  },
  {
   "property": "C54",
   "status": "proved",
   "theorems": [
    "Verif.Basic.C54_bytewise",
    "Verif.Basic.C54_no_control_characters",
    "Verif.Basic.C54_identity",
    "Verif.Basic.C54_idempotent",
    "Verif.Basic.C54_integer_copy",
    "Verif.Basic.C54_names"
   ],
   "note": ""
  },
  {
   "property": "C55",
   "status": "partial",
   "theorems": [
    "Verif.Applesoft.C55_listing",
    "Verif.Applesoft.C55_every_token_has_a_keyword",
    "Verif.Applesoft.C55_keywords_partial",
    "Verif.Applesoft.C55_violated_keywords",
    "Verif.Applesoft.C55_exact"
   ],
   "note": "Every line shape; tokens appear as their Applesoft keyword except the six listed in C55_violated_keywords (for example $CC, listed as ; instead of ^). C55_exact: a listing shows all tokens as Applesoft's keywords if and only if the program has none of the six."
  },
  {
   "property": "C56",
   "status": "proved",
   "theorems": [
    "Verif.Cmd.C56_order",
    "Verif.Cmd.C56_plain",
    "Verif.Cmd.C56_visits_distinct",
    "Verif.Cmd.C56_pages_are_the_binary",
    "Verif.Cmd.C56_layout",
    "Verif.Cmd.C56_command"
   ],
   "note": ""
  },
  {
   "property": "C57",
   "status": "partial",
   "theorems": [
    "Verif.Cmd.C57_plain",
    "Verif.Cmd.C57_accepts_partial",
    "Verif.Cmd.C57_default_start",
    "Verif.Cmd.C57_sound",
    "Verif.Cmd.C57_page_table",
    "Verif.Cmd.C57_violated",
    "Verif.Cmd.C57_command"
   ],
   "note": "The guard adds the length to the start instead of the load address: C57_violated. C57_accepts_partial says exactly what is accepted, C57_sound that whatever is accepted is loadable, C57_page_table the rest. C57_command: from the command line, mksd succeeds exactly if the binary can be read, is accepted, and the order is one of the three."
  },
  {
   "property": "C58",
   "status": "proved",
   "theorems": [
    "Verif.Cmd.C58_reorder_refused",
    "Verif.Cmd.C58_command",
    "Verif.C58_refuses_to_overwrite",
    "Verif.C58_writes_exactly",
    "Verif.C58_stdout"
   ],
   "note": "C58_command: for every command; mksd has no option for it and always replaces the file it is given."
  },
  {
   "property": "C59",
   "status": "proved",
   "theorems": [
    "Verif.Cmd.C59_failure_changes_nothing",
    "Verif.Cmd.C59_other_files_untouched",
    "Verif.Cmd.C59_size_kept"
   ],
   "note": ""
  },
  {
   "property": "C60",
   "status": "partial",
   "theorems": [
    "Verif.Cmd.C60_crash_partial",
    "Verif.Cmd.C60_violated"
   ],
   "note": "The write is not atomic: C60_violated. C60_crash_partial says what can be found after a crash."
  },
  {
   "property": "C61",
   "status": "partial",
   "theorems": [
    "Verif.Cmd.C61_violated",
    "Verif.Cmd.C61_mkhello_partial",
    "Verif.Cmd.C61_refused"
   ],
   "note": "The clause that FHELLO resolves to file 1 afterwards holds exactly if it did before or adding it does not spoil the symbol table (C103_mkhello), in particular under the condition of C63 for names; the file itself is covered without condition. C61_violated: a disk on which mkhello succeeds and FHELLO stands for nothing afterwards. C105 says what a session does on any disk."
  },
  {
   "property": "C62",
   "status": "partial",
   "theorems": [
    "Verif.Types.C62_constants",
    "Verif.Types.C62_short_list",
    "Verif.Types.C62_full_names",
    "Verif.Types.C62_advertised_names",
    "Verif.Types.C62_short_names_partial",
    "Verif.Types.C62_violated_one_letter",
    "Verif.Types.C62_unknown_is_an_error",
    "Verif.Types.C62_violated_empty_name",
    "Verif.Types.C62_bytes_partial",
    "Verif.Types.C62_violated_F9",
    "Verif.Types.C62_string",
    "Verif.Types.C62_listing"
   ],
   "note": "Full names and all advertised names resolve to their own types. False for the empty text (C62_violated_empty_name), for the one-letter names of NewA and NewB that the listing shows (C62_violated_one_letter) and for type byte 0xF9, which has no name (C62_violated_F9)."
  },
  {
   "property": "C63",
   "status": "partial",
   "theorems": [
    "Verif.Cmd.C63_put_partial",
    "Verif.Cmd.C63_put_then_dump",
    "Verif.Cmd.C63_violated",
    "Verif.Cmd.C63_violated_auto"
   ],
   "note": "Proved for every successful put: the file is found again under its number and under every name that survives (Survives), the other files unchanged. False in general: C63_violated (a damaged chain makes the symbol table unreadable on reopening) and C63_violated_auto (without naming the system, a put can turn the disk into one recognised as DOS 3.3). C103 says exactly when the names are lost, C105 what a session does on any disk."
  },
  {
   "property": "C64",
   "status": "proved",
   "theorems": [
    "Verif.Errors.C64_kinds",
    "Verif.Errors.C64_others",
    "Verif.Errors.C64_exclusive"
   ],
   "note": ""
  },
  {
   "property": "C65",
   "status": "proved",
   "theorems": [
    "Verif.Flags.C65_number_flags",
    "Verif.Flags.C65_otherwise_an_error"
   ],
   "note": ""
  },
  {
   "property": "C66",
   "status": "partial",
   "theorems": [
    "Verif.Integer.C66_listing_partial",
    "Verif.Integer.C66_program_partial",
    "Verif.Integer.C66_violated_string",
    "Verif.Integer.C66_violated_keyword",
    "Verif.Integer.C66_exact"
   ],
   "note": "C66_exact: a program of lines made of tokens, numbers, names, strings and a remark is listed as it was typed if and only if no line has token $79 and in its strings every digit directly follows a letter or a digit. C66_violated_keyword and C66_violated_string are programs where it is not."
  },
  {
   "property": "C67",
   "status": "proved",
   "theorems": [
    "Verif.Cmd.C67_writes_refused",
    "Verif.Cmd.C67_mkhello_refused",
    "Verif.Cmd.C67_read_refused"
   ],
   "note": ""
  },
  {
   "property": "C68",
   "status": "proved",
   "theorems": [
    "Verif.Supermon.C68_by_address",
    "Verif.Supermon.C68_for_address"
   ],
   "note": ""
  },
  {
   "property": "C69",
   "status": "partial",
   "theorems": [
    "Verif.Prodos.C69_reports_partial",
    "Verif.Prodos.C69_passed_partial",
    "Verif.Prodos.C69_violated_refused",
    "Verif.Prodos.C69_violated_passed"
   ],
   "note": "The checks take the minute for the hour: C69_violated_refused (a legal time is reported) and C69_violated_passed (an illegal one is not). C69_reports_partial says exactly what is reported, for every block of each kind; C69_passed_partial that the checks are right where minutes and hours cannot be told apart."
  },
  {
   "property": "C70",
   "status": "partial",
   "theorems": [
    "Verif.Prodos.C70_yes_exact",
    "Verif.Prodos.C70_no_exact",
    "Verif.Prodos.C70_never_exact",
    "Verif.Prodos.C70_violated",
    "Verif.Prodos.C70_answers",
    "Verif.Prodos.C70_recognised_partial",
    "Verif.Prodos.C70_blank",
    "Verif.Prodos.C70_short"
   ],
   "note": "C70_answers is unconditional. Exactly when there is an answer, for images below 64 GiB: C70_yes_exact, C70_no_exact and C70_never_exact. C70_violated: an image of floppy size for which there is never an answer."
  },
  {
   "property": "C71",
   "status": "proved",
   "theorems": [
    "Verif.Cmd.C71_directory_refused",
    "Verif.Cmd.C71_ls_nakedos",
    "Verif.Cmd.C71_ls_dos3",
    "Verif.Cmd.C71_ls_prodos",
    "Verif.Cmd.C71_ls_prodos_unknown"
   ],
   "note": ""
  },
  {
   "property": "C72",
   "status": "partial",
   "theorems": [
    "Verif.Cmd.C72_dump_nakedos",
    "Verif.Cmd.C72_dump_prodos",
    "Verif.Cmd.C72_dump_dos3_partial",
    "Verif.Cmd.C72_violated"
   ],
   "note": "NakedOS and ProDOS fully; DOS 3.3 for the files whose contents C19 gives. C72_violated: a DOS 3.3 disk whose listing has a file for which dump crashes."
  },
  {
   "property": "C73",
   "status": "partial",
   "theorems": [
    "Verif.Cmd.C73_rm",
    "Verif.Cmd.C73_unknown_name",
    "Verif.Cmd.C73_missing",
    "Verif.Cmd.C73_rm_succeeds",
    "Verif.Cmd.C73_violated_missingok",
    "Verif.Cmd.C73_missing_error",
    "Verif.Cmd.C73_table_files",
    "Verif.Cmd.C73_violated_table"
   ],
   "note": "All of it except that --missingok covers only names that resolve to a file number: C73_unknown_name shows that an unknown symbolic name is an error even with the flag, and C73_violated_missingok gives a disk. For symbolic names the two files of the symbol table (3 and 4) are excluded, because rm rewrites the table: C73_table_files, after rm by a symbol they are always there, and C73_violated_table, a disk on which rm succeeds and the file it removed is still there. C94 says exactly when rm succeeds."
  },
  {
   "property": "C74",
   "status": "proved",
   "theorems": [
    "Verif.Cmd.C74_put_keeps_files",
    "Verif.Cmd.C74_one_stdin"
   ],
   "note": ""
  },
  {
   "property": "C75",
   "status": "partial",
   "theorems": [
    "Verif.Cmd.C75_saved_exact",
    "Verif.Cmd.C75_bare_exact",
    "Verif.Cmd.C75_saved_program_partial",
    "Verif.Cmd.C75_bare_program_partial",
    "Verif.Cmd.C75_failure",
    "Verif.Cmd.C75_dump_decode_partial",
    "Verif.Cmd.C75_violated"
   ],
   "note": "For the keywords other than the six of C55_violated_keywords, and for programs without length only if the first two bytes do not look like one (C50_violated shows that this is needed). C75_failure is unconditional. C75_violated: the saved program 10 PRINT 2^3 is printed without a ^. C75_saved_exact, C75_bare_exact: what is printed is the listing with Applesoft's keywords if and only if the program has none of the six."
  },
  {
   "property": "C76",
   "status": "partial",
   "theorems": [
    "Verif.Apple2.C76_boots_partial",
    "Verif.Apple2.C76_command_partial",
    "Verif.Apple2.C76_machines",
    "Verif.Apple2.C76_violated_page_zero",
    "Verif.Apple2.C76_violated_page_eight"
   ],
   "note": "For binaries that use none of the pages 0, 1, 3 and 8. For page 0 (skipped) and page 8 (overwrites the loader) it is false: C76_violated_page_zero, C76_violated_page_eight. Pages 1 and 3 are used by the ROM's read routine, whose specification leaves open what happens then. C76_machines shows that machines and states as required exist for every image and slot."
  },
  {
   "property": "C77",
   "status": "proved",
   "theorems": [
    "Verif.Cmd.C77_session",
    "Verif.Cmd.C77_dump",
    "Verif.Cmd.C77_ls",
    "Verif.Cmd.C77_nothing_lost"
   ],
   "note": "Stated for commands told nakedos; C108_as_if_named carries it over to every command that finds out by itself."
  },
  {
   "property": "C78",
   "status": "proved",
   "theorems": [
    "Verif.Cmd.C78_put_number"
   ],
   "note": ""
  },
  {
   "property": "C79",
   "status": "partial",
   "theorems": [
    "Verif.Cmd.C79_depends",
    "Verif.Cmd.C79_overlap",
    "Verif.Cmd.C79_as_if_after_partial",
    "Verif.Cmd.C79_as_if_before_partial",
    "Verif.Cmd.C79_violated_lost_update"
   ],
   "note": "C79_depends is unconditional. Serial behaviour is proved for commands of which the other is not given the first one's output file, or does not write a file given to the first. For two commands on the same image it is false: C79_violated_lost_update (there is no locking). C79_overlap says what happens then. The other programs run between the last read and the write; for commands on files of their own, any schedule of reads and writes is C98."
  },
  {
   "property": "C80",
   "status": "partial",
   "theorems": [
    "Verif.Dos3.C80_get_file",
    "Verif.Cmd.C80_sturdy_partial",
    "Verif.Cmd.C80_dump",
    "Verif.Cmd.C80_put",
    "Verif.Cmd.C80_decode",
    "Verif.Cmd.C80_blind",
    "Verif.Cmd.C80_violated_dump",
    "Verif.Cmd.C80_put_empty",
    "Verif.Cmd.C80_violated_put",
    "Verif.Cmd.C80_violated_decode",
    "Verif.Cmd.C80_decode_exact",
    "Verif.Cmd.C80_decode_ends",
    "Verif.Cmd.C80_put_empty_exact",
    "Verif.Cmd.C80_nakedos_returns"
   ],
   "note": "Proved for ls, reorder, filetypes, rm, mkhello and mksd (C80_sturdy_partial); reorder, filetypes and mksd moreover always end (C80_blind). dump, put and decode can crash (C80_violated_dump, C80_violated_put, C80_violated_decode); C80_dump says exactly when dump does, C80_put that put does only for an empty file on a NakedOS disk (C80_put_empty_exact: exactly when, for every name; C80_put_empty: for numbered names, in simpler terms), and C80_decode_exact exactly when decode does: if the lines lead to one placed just below the load address (C80_decode: the simpler necessary condition; C80_decode_ends: with so many lines, when it lists, crashes or fails). Commands that do not end (an endless loop, or recursion that exhausts Go's stack) count as not returning, not as crashing. On a NakedOS disk ls, dump, rm and put of anything not empty succeed or report an error (C80_nakedos_returns)."
  },
  {
   "property": "C81",
   "status": "proved",
   "theorems": [
    "Verif.Cmd.C81_same_disk_same_results",
    "Verif.Cmd.C81_reorder",
    "Verif.Cmd.C81_reorder_then",
    "Verif.Cmd.C81_sessions"
   ],
   "note": ""
  },
  {
   "property": "C82",
   "status": "partial",
   "theorems": [
    "Verif.Cmd.C82_images_complete",
    "Verif.Cmd.C82_wrong_size_refused",
    "Verif.Cmd.C82_torn_images_noticed_partial",
    "Verif.Cmd.C82_violated_hdv",
    "Verif.Cmd.C82_only_ls",
    "Verif.Cmd.C82_torn_images_kept"
   ],
   "note": "For file names without the extension .hdv. For names with it the claim is false: C82_violated_hdv (2048 bytes of a disk, cut off by a crash, are listed as a hard disk). Only ls can be deceived: C82_only_ls and C82_torn_images_kept, for all names: every other command ends with an error, and nothing is changed. C82_images_complete is unconditional. As in C60, a crash during the write leaves a beginning of the new contents."
  },
  {
   "property": "C83",
   "status": "partial",
   "theorems": [
    "Verif.Cmd.C83_session_partial",
    "Verif.Cmd.C83_dump",
    "Verif.Cmd.C83_ls",
    "Verif.Cmd.C83_put_succeeds",
    "Verif.Cmd.C83_rm_succeeds",
    "Verif.Cmd.C83_violated"
   ],
   "note": "For commands that leave files 3 and 4 (where the table itself is kept) and the symbol of the first entry of the table alone, and whose names are numbers, symbols or number:symbol. Changing the symbol of the first entry can destroy the table: C83_violated (an unused entry, which carries link 0, is patched instead of the symbol that links to the first one; see C33). C103 says exactly when the names are lost, C105 what a session does on any disk. Stated for commands told nakedos; C108_as_if_named carries it over to every command that finds out by itself."
  },
  {
   "property": "C84",
   "status": "partial",
   "theorems": [
    "Verif.Cmd.C84_opens_exact",
    "Verif.Cmd.C84_refused_exact",
    "Verif.Cmd.C84_endless",
    "Verif.Cmd.C84_opened_as_first",
    "Verif.Cmd.C84_finds_first_partial",
    "Verif.Cmd.C84_named",
    "Verif.Cmd.C84_hangs",
    "Verif.Cmd.C84_dos",
    "Verif.Cmd.C84_nakedos",
    "Verif.Cmd.C84_violated"
   ],
   "note": "C84_opened_as_first, C84_dos and C84_named are unconditional. That an image is always opened or refused is false: opening can go on for ever (C84_hangs, C84_violated). Exact conditions: C84_endless says when opening may never end, C84_opens_exact when the image opens as which disk, C84_refused_exact when it is refused. C84_finds_first_partial is the weaker form for images in which nothing goes round in a circle."
  },
  {
   "property": "C85",
   "status": "proved",
   "theorems": [
    "Verif.Cmd.C85_no_loss",
    "Verif.Cmd.C85_table_space",
    "Verif.Cmd.C85_fits",
    "Verif.Cmd.C85_session",
    "Verif.Cmd.C85_fresh"
   ],
   "note": "Stated for commands told nakedos; C108_as_if_named carries it over to every command that finds out by itself."
  },
  {
   "property": "C86",
   "status": "partial",
   "theorems": [
    "Verif.Prodos.C86_catalog_exact",
    "Verif.Cmd.C86_same_result_partial",
    "Verif.Cmd.C86_other_commands",
    "Verif.Cmd.C86_more_time",
    "Verif.Cmd.C86_violated_twins",
    "Verif.Cmd.C86_violated_ends"
   ],
   "note": "Proved for every command that ends, and every content of the files, except ls of a subdirectory of a ProDOS volume on which two subdirectories have the same full path. There what is printed depends on the order of map iteration (C86_violated_twins). Whether a command ends at all can depend on it too (C86_violated_ends). Exactly when the catalog of a ProDOS volume below 64 GiB depends on it: C86_catalog_exact."
  },
  {
   "property": "C87",
   "status": "partial",
   "theorems": [
    "Verif.Cmd.C87_always",
    "Verif.Cmd.C87_ends_partial",
    "Verif.Cmd.C87_violated_catalog",
    "Verif.Cmd.C87_violated_directory",
    "Verif.Cmd.C87_violated_program",
    "Verif.Cmd.C87_exact",
    "Verif.Cmd.C87_told",
    "Verif.Cmd.C87_decode",
    "Verif.Cmd.C87_nakedos"
   ],
   "note": "False of the code: a catalog, a directory or a program line that leads back to itself makes the commands run for ever (C87_violated_catalog, C87_violated_directory, C87_violated_program). C87_exact says for every command and all files exactly when it may run for ever. Weaker forms: C87_ends_partial for files in which nothing goes round in a circle, C87_always for reorder, filetypes and mksd, C87_nakedos for NakedOS disks, C87_decode for decode."
  },
  {
   "property": "C88",
   "status": "partial",
   "theorems": [
    "Verif.Cmd.C88_reported_partial",
    "Verif.Cmd.C88_violated",
    "Verif.Cmd.C88_violated_filetypes",
    "Verif.Cmd.C88_faultless",
    "Verif.Cmd.C88_ls_output",
    "Verif.Cmd.C88_decode_output"
   ],
   "note": "Proved for put, rm, mkhello, mksd, reorder and dump. False for ls, decode and filetypes, which drop the errors of their writes: their exit status never depends on them (C88_violated, C88_violated_filetypes). C88_faultless ties the model with faults to the one without. C88_ls_output and C88_decode_output: what ls and decode then print."
  },
  {
   "property": "C89",
   "status": "partial",
   "theorems": [
    "Verif.Cmd.C89_failed_write_partial",
    "Verif.Cmd.C89_violated"
   ],
   "note": "Proved that all other files are untouched and that the file itself is as it was, complete, or the beginning of what it should be, the last only with exit status 1. That the old contents survive is false: WriteFile truncates first, so a full disk empties the image (C89_violated)."
  },
  {
   "property": "C90",
   "status": "partial",
   "theorems": [
    "Verif.Cmd.C90_number",
    "Verif.Cmd.C90_name_partial",
    "Verif.Cmd.C90_violated",
    "Verif.Cmd.C90_exact"
   ],
   "note": "C90_exact: on every NakedOS disk, for numbers and for number:symbol and symbols (other than for files 3 and 4, the table itself), the second put never changes a byte, and it succeeds exactly if the symbol stood for the file before or giving it to the file did not spoil the table. Also proved: it succeeds for numbers, and on disks whose symbol table is in order with the names C83 allows. Missing from the full statement is what the code does not do: C90_violated shows the second put failing. Empty contents are left out: C37 shows that they crash. Non-vacuity: game_exact, aaa_exact, game_again."
  },
  {
   "property": "C91",
   "status": "proved",
   "theorems": [
    "Verif.Cmd.C91_put",
    "Verif.Cmd.C91_put_empty",
    "Verif.Cmd.C91_tidy"
   ],
   "note": "C91_put: every NakedOS disk and every name, for contents with a byte at least. C91_put_empty: contents without bytes, which succeed only if no sector is free and otherwise crash (C80_put_empty_exact). C91_tidy: the same as C91_put in the terms of C83 on disks whose symbol table is in order. Non-vacuity: game_iff, any_witness, empty_witness."
  },
  {
   "property": "C92",
   "status": "partial",
   "theorems": [
    "Verif.Cmd.C92_exact",
    "Verif.Cmd.C92_copy_number",
    "Verif.Cmd.C92_copy_partial",
    "Verif.Cmd.C92_violated"
   ],
   "note": "C92_exact: on every NakedOS disk the copy is dumped under its number, and under its symbol exactly if the symbol stood for the file before or giving it to the file did not spoil the table; otherwise the dump under the symbol fails. Missing from the full statement is what the code does not do (C92_violated). Non-vacuity: game_exact, aaa_exact."
  },
  {
   "property": "C93",
   "status": "partial",
   "theorems": [
    "Verif.Cmd.C93_exact",
    "Verif.Cmd.C93_violated",
    "Verif.Cmd.C93_number",
    "Verif.Cmd.C93_name_partial"
   ],
   "note": "C93_number: numbers on every disk, except the numbers of the symbol table's files and numbers that are also spelled as a symbol (rm removes that symbol too). C93_exact: a new symbol for a new file, on every disk: if adding it spoils the table, rm does not know it; otherwise rm succeeds, all files are as before and all names are, unless removing the symbol spoils the table. C93_name_partial: on tables in order that does not happen, except for the symbol of the first entry (C83_violated). Missing from the full statement is what the code does not do: C93_violated, DFAB is put and removed again on a disk with a symbol DFAB, and the listing is different. Non-vacuity: game_exact, game_undo."
  },
  {
   "property": "C94",
   "status": "proved",
   "theorems": [
    "Verif.Cmd.C94_rm",
    "Verif.Cmd.C94_number",
    "Verif.Cmd.C94_tidy",
    "Verif.Cmd.C94_absent",
    "Verif.Cmd.C94_again"
   ],
   "note": "C94_rm: every NakedOS disk and every name. C94_number, C94_absent and C94_again: numbers, and doing it twice. C94_tidy: the same in the terms of C83. Removing a symbol twice is an error even with --missingok (C73_unknown_name). Non-vacuity: game_rm, any_witness."
  },
  {
   "property": "C95",
   "status": "proved",
   "theorems": [
    "Verif.Cmd.C95_dos3",
    "Verif.Cmd.C95_nakedos"
   ],
   "note": "C95_dos3, C95_nakedos. Non-vacuity: naked_damage (for every NakedOS disk) and an example DOS 3.3 disk with one of its files overwritten."
  },
  {
   "property": "C96",
   "status": "proved",
   "theorems": [
    "Verif.Cmd.C96_fits",
    "Verif.Cmd.C96_any_order",
    "Verif.Cmd.C96_mixed"
   ],
   "note": "C96_fits (when, and what is on the image then), C96_any_order, C96_mixed, for commands told the order and nakedos. Non-vacuity: both_orders. For commands that are told that the disk is NakedOS or find it out."
  },
  {
   "property": "C97",
   "status": "proved",
   "theorems": [
    "Verif.Apple2.C97_program",
    "Verif.Apple2.C97_loads",
    "Verif.Apple2.C97_missing_file"
   ],
   "note": "C97_program (the code, on any disk that has it as file 1), C97_loads (the command). That a call of NakedOS does what it should is a hypothesis (ReadsFiles), taken from comments and notes in the repository; example machine: naked_sound. mkhello does not check that the file is there: C97_missing_file."
  },
  {
   "property": "C98",
   "status": "proved",
   "theorems": [
    "Verif.Cmd.C98_pieces_as_if_alone",
    "Verif.Cmd.C98_pieces_other_files",
    "Verif.Cmd.C98_pieces_ends",
    "Verif.Cmd.C98_pieces_any_schedule_any_order",
    "Verif.Cmd.C98_as_if_alone",
    "Verif.Cmd.C98_other_files",
    "Verif.Cmd.C98_ends",
    "Verif.Cmd.C98_any_schedule_any_order",
    "Verif.Cmd.C98_shared_target_race",
    "Verif.Cmd.C98_shared_reader_race"
   ],
   "note": "C98_as_if_alone, C98_other_files, C98_ends, C98_any_schedule_any_order, about Model/Sched.lean, where a command is the tree of its system calls; exec_program proves that without others in between this is the same as Model/Cmd.lean. The condition is needed: C98_shared_target_race (two reorder commands both make the same new file without --overwrite), C98_shared_reader_race (a reader finds an image empty while it is rewritten). In Model/Sched.lean reading a file is one call; the theorems C98_pieces_* say the same of Model/Fine.lean, where files are read and written piece by piece, the sizes being up to the system."
  },
  {
   "property": "C99",
   "status": "partial",
   "theorems": [
    "Verif.Cmd.C99_short_exact",
    "Verif.Cmd.C99_full_exact",
    "Verif.Cmd.C99_short_names_partial",
    "Verif.Cmd.C99_numbers",
    "Verif.Cmd.C99_compound_unknown",
    "Verif.Cmd.C99_violated_full_names",
    "Verif.Cmd.C99_violated_short_names",
    "Verif.Cmd.C99_dos3_partial"
   ],
   "note": "C99_short_names_partial: on NakedOS disks the short listing, if no symbol reads like a number or is given twice (Unmistakable; true of every table in order, tidy_unmistakable). C99_numbers: every line of the full listing begins with such a name, on all NakedOS disks. C99_dos3_partial: DOS 3.3, for names that occur once. The property fails in general, with witnesses: C99_violated_full_names (DF05:GAME; C99_compound_unknown for every line with a colon on every NakedOS disk), C99_violated_short_names (a symbol DFAB for file 3). Exactly, for all NakedOS disks: C99_short_exact (a line of the short listing can be given to dump if and only if it is read as the file listed, or one with the same contents) and C99_full_exact (a line of the full listing if and only if the file has no symbol). Non-vacuity: listed_wit, game_there."
  },
  {
   "property": "C100",
   "status": "proved",
   "theorems": [
    "Verif.Cmd.C100_merge",
    "Verif.Cmd.C100_copy"
   ],
   "note": "C100_copy, C100_merge. Files 3 and 4, which belong to the symbol table, are not copied; symbols are not copied by numbered puts. For commands that are told that the disk is NakedOS or find it out."
  },
  {
   "property": "C101",
   "status": "proved",
   "theorems": [
    "Verif.Cmd.C101_piped",
    "Verif.Cmd.C101_order_needed"
   ],
   "note": "C101_piped; C101_order_needed shows that the condition on the extension cannot be dropped. With it C78, C83, C85, C91 and C94, stated for files, hold for standard input too."
  },
  {
   "property": "C102",
   "status": "partial",
   "theorems": [
    "Verif.Cmd.C102_writer_as_if_alone",
    "Verif.Cmd.C102_at_every_moment",
    "Verif.Cmd.C102_reader_partial",
    "Verif.Cmd.C102_whole_images_partial",
    "Verif.Cmd.C102_violated"
   ],
   "note": "About Model/Fine.lean, where files are read and written piece by piece. C102_writer_as_if_alone and C102_at_every_moment hold as stated. False for the readers: C102_violated has a reorder that reads an image while another rewrites it, succeeds, and makes the image of a disk that never was. What holds instead is C102_reader_partial (a reader goes as if alone on the old contents or on a mixture: a beginning of the old contents continued with the new ones) and C102_whole_images_partial (a command whose disk image this is, not .hdv, fails and prints nothing, or found an image of floppy size that is the old one up to some byte and the new one from there)."
  },
  {
   "property": "C103",
   "status": "proved",
   "theorems": [
    "Verif.Cmd.C103_put",
    "Verif.Cmd.C103_found_iff",
    "Verif.Cmd.C103_mkhello",
    "Verif.Cmd.C103_rm"
   ],
   "note": "C103_put, C103_mkhello, C103_rm: every disk and every table; C103_found_iff: a new symbol of letters and digits is found afterwards exactly if AddingSpoils does not hold. For put, what the names stand for is said for a symbol of letters and digits, or one whose letters and digits are not those of a symbol in use (StoredWell); that the table can be read or not is said for every symbol. A put to DF03 or DF04, the files that hold the table, without a symbol is left out: the table is then whatever was put. This sharpens C33, C61, C63, C73, C83, C92 and C93."
  },
  {
   "property": "C104",
   "status": "proved",
   "theorems": [
    "Verif.Cmd.C104_filetypes"
   ],
   "note": "C104_filetypes. text/tabwriter is modelled for tables in which all lines have the same number of cells and all cells are ASCII, as here."
  },
  {
   "property": "C105",
   "status": "proved",
   "theorems": [
    "Verif.Cmd.C105_session",
    "Verif.Cmd.C105_begin",
    "Verif.Cmd.C105_dump",
    "Verif.Cmd.C105_name_kept"
   ],
   "note": "C105_session over the relation Acts (what each command may do), C105_begin (every NakedOS disk has such files and names), C105_dump (what a symbol means is what dump finds), C105_name_kept (the last sentence; the commands keep away from files 3 and 4, where the table is kept, and no symbol stands for these). Unlike C83 it has no condition on the table or on the symbols used. When exactly the names are lost is C103. What becomes of a symbol put with characters that are neither letters nor digits is not said for the name that is left of it (SetsName). Non-vacuity: life_game. Stated for commands told nakedos; C108_as_if_named carries it over to every command that finds out by itself."
  },
  {
   "property": "C106",
   "status": "proved",
   "theorems": [
    "Verif.Cmd.C106_ends",
    "Verif.Cmd.C106_all_end"
   ],
   "note": "C106_ends (one command that keeps getting turns) and C106_all_end (all of them), about the commands of Model/Fine.lean, in which every open, stat, read, write is a turn of its own and moves at least one byte. That a command may go round in circles by itself between two system calls is C87: here such a command has ended, with outcome timeout."
  },
  {
   "property": "C107",
   "status": "proved",
   "theorems": [
    "Verif.Cmd.C107_as_on_some_files",
    "Verif.Cmd.C107_sturdy",
    "Verif.Cmd.C107_together",
    "Verif.Cmd.C107_together_written",
    "Verif.Cmd.C107_together_sturdy"
   ],
   "note": "C107_as_on_some_files (any other programs), C107_together (other diskii commands, in any schedule), C107_together_written (what is left in a file that no other command writes), C107_sturdy and C107_together_sturdy (no crash, without the two exceptions). About the commands of Model/Fine.lean. Simplification: a file removed by another program while it is open is read as if it ended there."
  },
  {
   "property": "C108",
   "status": "partial",
   "theorems": [
    "Verif.Cmd.C108_as_if_named",
    "Verif.Cmd.C108_dump_as_named",
    "Verif.Cmd.C108_found_exact",
    "Verif.Cmd.C108_not_taken",
    "Verif.Cmd.C108_unnamed_partial",
    "Verif.Cmd.C108_only_unnamed",
    "Verif.Cmd.C108_violated",
    "Verif.Cmd.C108_plain_accepted",
    "Verif.Cmd.C108_plain_ls",
    "Verif.Cmd.C108_plain_rm",
    "Verif.Cmd.C108_plain_mkhello",
    "Verif.Cmd.C108_plain_reorder",
    "Verif.Cmd.C108_plain_decode"
   ],
   "note": "The full property is false. dump, rm and put offer only auto and dos3 for --system (ls offers all), and auto prefers DOS 3.3. C108_violated: after a put without any options, ls told that the disk is NakedOS lists the file, but no dump, rm or put that the program accepts succeeds any more. Proved: C108_as_if_named and C108_dump_as_named (finding out is as good as being told, all systems), C108_found_exact (a NakedOS disk is found to be one exactly if it cannot be taken for DOS 3.3), C108_not_taken (a simple sufficient condition), C108_unnamed_partial (then the commands do what they do when told), C108_only_unnamed (an accepted put or rm that succeeds names no system). C108_plain_*: what the commands do without any option."
  },
  {
   "property": "C109",
   "status": "partial",
   "theorems": [
    "Verif.Cmd.C109_nakedos_exact",
    "Verif.Cmd.C109_not_dos",
    "Verif.Cmd.C109_safe",
    "Verif.Cmd.C109_small_partial",
    "Verif.Cmd.C109_unsafe",
    "Verif.Cmd.C109_violated"
   ],
   "note": "The full property is false: a binary can read like a NakedOS sector map in the three pages that lie in sectors 9, A and B of track 0, and then put without options writes over the program (C109_violated; in general C109_unsafe). Proved: C109_safe for every binary that does not read so in an order the options allow, C109_small_partial for all binaries of up to 2048 bytes, C109_nakedos_exact (exactly when the disk passes for NakedOS), C109_not_dos (it never passes for DOS 3.3)."
  },
  {
   "property": "C110",
   "status": "partial",
   "theorems": [
    "Verif.Cmd.C110_bare_partial",
    "Verif.Cmd.C110_bare_short",
    "Verif.Cmd.C110_saved_exact",
    "Verif.Cmd.C110_integer",
    "Verif.Cmd.C110_violated"
   ],
   "note": "The full property is false: a program saved with its length is not recognised any more once it is padded (C110_violated). Proved: C110_bare_partial for every file read from its first byte on, unless the padded length looks like its first two bytes; C110_bare_short, that this cannot happen for programs not longer than the memory before them; C110_saved_exact, that of the programs saved with their length and not longer than that exactly those whose length is 0 or 255 modulo 256 are still listed, and decode fails for the others; C110_integer, that Integer BASIC programs without length decode to their lines if at most three bytes are padded, and crash the decoder otherwise."
  },
  {
   "property": "C111",
   "status": "partial",
   "theorems": [
    "Verif.Unicode.C111_encode",
    "Verif.Supermon.C111_get",
    "Verif.Supermon.C111_delete",
    "Verif.Supermon.C111_put_partial",
    "Verif.Unicode.C111_order_partial",
    "Verif.Unicode.C111_open_partial",
    "Verif.Unicode.C111_violated_name",
    "Verif.Supermon.C111_violated",
    "Verif.Unicode.C111_order",
    "Verif.Unicode.C111_open",
    "Verif.Supermon.C111_put",
    "Verif.Supermon.C111_violated_put"
   ],
   "note": "The full property is false: the Kelvin sign counts as a K in names (C111_violated) and in extensions (C111_violated_name), and the long s as an S in names; a file put under a name with a dotless i is stored under I and not found again under the name given (C111_violated_put). Proved: C111_get and C111_delete, for every name exactly: it is looked up as the name with these two characters written as k and s; C111_put, for every name exactly: it is looked up like that, and stored with the long s as s and the dotless i as i (threeLetters); C111_put_partial, that for names without the three letters this is as if only A-Z had case; C111_order and C111_open, for every image name exactly: it is taken as the name with each Kelvin sign written as k; C111_order_partial and C111_open_partial, that without that sign only A-Z have case. The facts used of the Unicode tables are the hypothesis IsUnicode, which a sample table meets. C111_encode: every character of Unicode survives the encoding that ToUpper and ToLower use."
  },
  {
   "property": "C112",
   "status": "partial",
   "theorems": [
    "Verif.Cmd.C112_nakedos",
    "Verif.Cmd.C112_tells",
    "Verif.Cmd.C112_dos3_exact",
    "Verif.Cmd.C112_prodos_exact",
    "Verif.Cmd.C112_violated"
   ],
   "note": "The full property is false: a DOS 3.3 disk with one file whose name has a newline within, and one with two files, have the same listing (C112_violated). Proved: for NakedOS, in full (C112_nakedos, C112_tells); for DOS 3.3 with an intact catalog and for ProDOS exactly when it holds: if and only if no name of a listed file has a newline within (C112_dos3_exact, C112_prodos_exact)."
  },
  {
   "property": "C113",
   "status": "proved",
   "theorems": [
    "Verif.Heap.C113_open",
    "Verif.Heap.C113_values",
    "Verif.Heap.C113_adopts",
    "Verif.HeapDos3.C113_dos3_open",
    "Verif.HeapDos3.C113_dos3_values",
    "Verif.HeapDos3.C113_dos3_adopts"
   ],
   "note": "C113_values (any history of calls over slices in memory, compared with the same history over values), C113_open (opening fails or succeeds alike and writes to no array that was there), C113_adopts (the operator alone, without Swizzle, makes no copy: it works on the slice it is given). C113_dos3_open, C113_dos3_values, C113_dos3_adopts say the same of DOS 3.3 disks, whose PutFile and Delete refuse everything. Opening with a given order and system. Slicing beyond the length of a slice, up to its capacity, is not among the calls."
  },
  {
   "property": "C114",
   "status": "partial",
   "theorems": [
    "Verif.Spec.C114_values_partial",
    "Verif.Spec.C114_image",
    "Verif.Spec.C114_violated_hdv"
   ],
   "note": "C114_values_partial: true of all programs that do not call OpenImage on a slice under a .hdv name (OpenFile on a .hdv file is included). C114_image: what OpenImage does with its slice, a copy for every floppy image and the slice itself for .hdv. C114_violated_hdv: a program for which it fails, because openHDV hands the slice of the caller to the operator."
  },
  {
   "property": "C115",
   "status": "partial",
   "theorems": [
    "Verif.Cmd.C115_settled_partial",
    "Verif.Cmd.C115_in_time_partial",
    "Verif.Cmd.C115_no_image",
    "Verif.Cmd.C115_plain_floppies",
    "Verif.Prodos.C115_rounds",
    "Verif.Prodos.C115_listed_once_partial",
    "Verif.Prodos.C115_violated",
    "Verif.Cmd.C115_violated_ls"
   ],
   "note": "C115_rounds: for every ProDOS volume whose directories can all be read, some loop takes at least as many rounds as there are subdirectories to read, where one counts as often as it is listed in what is read, and none takes more than that or the number of blocks, whichever is larger. C115_settled_partial: true of every command if no ProDOS directory in the image is listed twice; C115_in_time_partial: such a command ends in time if nothing it reads goes round in a circle; C115_listed_once_partial: reading a volume; C115_plain_floppies: on DOS 3.3 and NakedOS disks found in the first sector order tried, the rounds given make no difference; C115_no_image: true of the commands that open no image. C115_violated, C115_violated_ls: a 140 KB image that can be read, on which ls takes 2^254 - 2 rounds, because readVolume reads a directory again for every entry that leads to it. Rounds of loops of the reading code are counted, not machine steps."
  },
  {
   "property": "C116",
   "status": "partial",
   "theorems": [
    "Verif.Supermon.C116_put_exact",
    "Verif.Supermon.C116_put_partial",
    "Verif.Supermon.C116_delete_exact",
    "Verif.Supermon.C116_write_file_partial",
    "Verif.Supermon.C116_write_file_illegal",
    "Verif.Supermon.C116_delete_partial",
    "Verif.Supermon.C116_violated_put",
    "Verif.Supermon.C116_violated_delete",
    "Verif.Supermon.C116_violated_write_file",
    "Verif.Prodos.C116_bitmap_exact",
    "Verif.Prodos.C116_bitmap_partial",
    "Verif.Prodos.C116_violated_bitmap"
   ],
   "note": "C116_put_exact and C116_delete_exact say for every disk and every name which failing calls change something, and what: those that store or remove the file and then cannot write the symbol table (HalfPut, HalfRemoved in Spec/Failed.lean). C116_put_partial, C116_delete_partial: nothing is changed on disks all of whose symbols can be written again (and, for PutFile, whose table has an unused entry). C116_write_file_partial: nothing is changed for the numbers of files; C116_write_file_illegal: exactly what is changed for the three others. C116_bitmap_exact, C116_bitmap_partial: bitmaps. Violated: C116_violated_put, C116_violated_delete, C116_violated_write_file, C116_violated_bitmap. PutFile of nothing is left out here (it stores no file). The files that the commands write are not affected: a command that fails writes none (C59)."
  },
  {
   "property": "C117",
   "status": "partial",
   "theorems": [
    "Verif.Supermon.C117_put_partial",
    "Verif.Supermon.C117_put_other",
    "Verif.Supermon.C117_get_exact",
    "Verif.Supermon.C117_delete_partial",
    "Verif.Dos3.C117_dos_exact",
    "Verif.Dos3.C117_violated_dos",
    "Verif.Supermon.C117_violated_get"
   ],
   "note": "NakedOS: C117_put_partial (PutFile of a binary file with the length it says: out-of-space and file-exists exactly when they should be, and never file-not-found), C117_put_other (PutFile of anything else gives an ordinary error), C117_delete_partial, C117_get_exact (file-not-found exactly if the name is that of no file number: a symbol that is not in the table, or no name at all). The full property is false. C117_violated_get: GetFile for a number without a file gives an ordinary error. C117_dos_exact, C117_violated_dos: all errors of the DOS 3.3 operator are ordinary ones, also for a file that is not in the catalog. The kinds of errors of the predicates themselves are C64; which errors change nothing is C116."
  }
 ]
}
{
 "claims": [
  {
   "property": "C01",
   "status": "proved",
   "theorems": [
    "C8S.C01_total"
   ],
   "note": ""
  },
  {
   "property": "C02",
   "status": "proved",
   "theorems": [
    "C8S.C02_pieces"
   ],
   "note": ""
  },
  {
   "property": "C03",
   "status": "proved",
   "theorems": [
    "C8S.C03_grammar",
    "C8S.C03_determined",
    "C8S.C03_intended"
   ],
   "note": ""
  },
  {
   "property": "C04",
   "status": "proved",
   "theorems": [
    "C8S.C04_locations",
    "C8S.C04_positive"
   ],
   "note": ""
  },
  {
   "property": "C05",
   "status": "proved",
   "theorems": [
    "C8S.C05_hexadecimal",
    "C8S.C05_range",
    "C8S.C05_value"
   ],
   "note": "C05_value is for sources whose binary literals fit the machine word (as the quantifier says); C05_range needs no such hypothesis."
  },
  {
   "property": "C06",
   "status": "proved",
   "theorems": [
    "C8S.C06_rejected",
    "C8S.C06_accepted"
   ],
   "note": ""
  },
  {
   "property": "C07",
   "status": "partial",
   "theorems": [
    "C8S.C07_rejected",
    "C8S.C07_accepted",
    "C8S.C07_rejected_partial",
    "C8S.C07_claim_false"
   ],
   "note": "False of the code for binary literals with more digits than the machine word has bits (C07_claim_false, for every width; 64 on most machines). C07_rejected/C07_accepted give the exact behaviour for every length and width; C07_rejected_partial is the claim for numbers that fit the word."
  },
  {
   "property": "C08",
   "status": "proved",
   "theorems": [
    "C8S.C08_fused",
    "C8S.C08_error_last",
    "C8S.C08_error_once"
   ],
   "note": ""
  },
  {
   "property": "C09",
   "status": "proved",
   "theorems": [
    "C8S.C09_at_line_start",
    "C8S.C09_string",
    "C8S.C09_unclosed",
    "C8S.C09_comment",
    "C8S.C09_string_body",
    "C8S.C09_comment_body"
   ],
   "note": ""
  },
  {
   "property": "C10",
   "status": "proved",
   "theorems": [
    "C8S.C10_total",
    "C8S.C10_consumed"
   ],
   "note": ""
  },
  {
   "property": "C11",
   "status": "proved",
   "theorems": [
    "C8S.C11_grammar",
    "C8S.C11_unique",
    "C8S.C11_rejects",
    "C8S.C11_append"
   ],
   "note": ""
  },
  {
   "property": "C12",
   "status": "proved",
   "theorems": [
    "C8S.C12_error"
   ],
   "note": ""
  },
  {
   "property": "C13",
   "status": "proved",
   "theorems": [
    "C8S.C13_round_trip",
    "C8S.C13_formed",
    "C8S.C13_format"
   ],
   "note": ""
  },
  {
   "property": "C14",
   "status": "partial",
   "theorems": [
    "C8S.C14_blank_lines",
    "C8S.C14_leading",
    "C8S.C14_remove_comment",
    "C8S.C14_add_comment_partial",
    "C8S.C14_trailing",
    "C8S.C14_claim_false",
    "C8S.C14_blank_separates",
    "C8S.C14_respaced",
    "C8S.C14_respaced_output",
    "C8S.C14_amount",
    "C8S.C14_lines",
    "C8S.C14_comment_added_partial",
    "C8S.C14_comment_removed",
    "C8S.C14_comment_at_end",
    "C8S.C14_comment_rejected",
    "C8S.C14_text_claim_false"
   ],
   "note": "False of the code in one place: a comment after a directive without arguments or with a trailing comma is rejected (C14_claim_false, C14_text_claim_false). C14_comment_rejected shows it is always rejected there; C14_comment_added_partial is the claim for every other place."
  },
  {
   "property": "C15",
   "status": "proved",
   "theorems": [
    "C8S.C15_token",
    "C8S.C15_end",
    "C8S.C15_prefix"
   ],
   "note": ""
  },
  {
   "property": "C16",
   "status": "partial",
   "theorems": [
    "C8S.C16_claim_false",
    "C8S.C16_case_partial"
   ],
   "note": "False of the code for mixed-case 'Dt','dT','St','sT' (C16_claim_false); the exact classification is proved in the partial theorem."
  },
  {
   "property": "C17",
   "status": "proved",
   "theorems": [
    "C8S.C17_operand_iff",
    "C8S.C17_total",
    "C8S.C17_register_iff",
    "C8S.C17_label"
   ],
   "note": ""
  },
  {
   "property": "C18",
   "status": "proved",
   "theorems": [
    "C8S.C18_accepted_iff",
    "C8S.C18_rejected_iff",
    "C8S.C18_valid_iff"
   ],
   "note": ""
  },
  {
   "property": "C19",
   "status": "proved",
   "theorems": [
    "C8S.C19_directive",
    "C8S.C19_directive_error",
    "C8S.C19_mnemonic",
    "C8S.C19_mnemonic_error",
    "C8S.C19_lowercase"
   ],
   "note": ""
  },
  {
   "property": "C20",
   "status": "proved",
   "theorems": [
    "C8S.C20_db",
    "C8S.C20_bytes_unique",
    "C8S.C20_others"
   ],
   "note": ""
  },
  {
   "property": "C21",
   "status": "proved",
   "theorems": [
    "C8S.C21_word_iff",
    "C8S.C21_error_iff"
   ],
   "note": ""
  },
  {
   "property": "C22",
   "status": "proved",
   "theorems": [
    "C8S.C22_label_for_literal"
   ],
   "note": ""
  },
  {
   "property": "C23",
   "status": "proved",
   "theorems": [
    "C8S.C23_byte",
    "C8S.C23_nibble",
    "C8S.C23_value"
   ],
   "note": ""
  },
  {
   "property": "C24",
   "status": "proved",
   "theorems": [
    "C8S.C24_undefined",
    "C8S.C24_defined",
    "C8S.C24_lookup"
   ],
   "note": ""
  },
  {
   "property": "C25",
   "status": "proved",
   "theorems": [
    "C8S.C25_two_bytes",
    "C8S.C25_panic_only"
   ],
   "note": ""
  },
  {
   "property": "C26",
   "status": "proved",
   "theorems": [
    "C8S.C26_decode_encode",
    "C8S.C26_encode_injective"
   ],
   "note": ""
  },
  {
   "property": "C27",
   "status": "proved",
   "theorems": [
    "C8S.C27_encode_decode",
    "C8S.C27_nop_iff"
   ],
   "note": ""
  },
  {
   "property": "C28",
   "status": "partial",
   "theorems": [
    "C8S.C28_reassembles_partial",
    "C8S.C28_decoded_partial",
    "C8S.C28_padded",
    "C8S.C28_shift",
    "C8S.C28_claim_false"
   ],
   "note": "False of the code for values that need padding (printed with spaces) and for SHR/SHL, whose text drops the second register (witnesses given). The partial theorem is the round trip for full-width values; C28's exact characterisation of the texts that reassemble is proved in Props/Disassembly.lean."
  },
  {
   "property": "C29",
   "status": "proved",
   "theorems": [
    "C8S.C29_labels",
    "C8S.C29_first_byte"
   ],
   "note": ""
  },
  {
   "property": "C30",
   "status": "proved",
   "theorems": [
    "C8S.C30_duplicates",
    "C8S.C30_reported",
    "C8S.C30_exact"
   ],
   "note": ""
  },
  {
   "property": "C31",
   "status": "proved",
   "theorems": [
    "C8S.C31_in_memory",
    "C8S.C31_rejected",
    "C8S.C31_last_byte"
   ],
   "note": ""
  },
  {
   "property": "C32",
   "status": "proved",
   "theorems": [
    "C8S.C32_passes_agree"
   ],
   "note": ""
  },
  {
   "property": "C33",
   "status": "proved",
   "theorems": [
    "C8S.C33_image",
    "C8S.C33_labels"
   ],
   "note": ""
  },
  {
   "property": "C34",
   "status": "proved",
   "theorems": [
    "C8S.C34_valid",
    "C8S.C34_invalid"
   ],
   "note": ""
  },
  {
   "property": "C35",
   "status": "proved",
   "theorems": [
    "C8S.C35_move",
    "C8S.C35_unused"
   ],
   "note": ""
  },
  {
   "property": "C36",
   "status": "proved",
   "theorems": [
    "C8S.C36_stray",
    "C8S.C36_reported",
    "C8S.C36_located"
   ],
   "note": ""
  },
  {
   "property": "C37",
   "status": "proved",
   "theorems": [
    "C8S.C37_sections",
    "C8S.C37_nonempty",
    "C8S.C37_starts"
   ],
   "note": ""
  },
  {
   "property": "C38",
   "status": "proved",
   "theorems": [
    "C8S.C38_built_iff_inMemory",
    "C8S.C38_append"
   ],
   "note": ""
  },
  {
   "property": "C39",
   "status": "partial",
   "theorems": [
    "C8S.C39_claim_false",
    "C8S.C39_intersects_partial"
   ],
   "note": "False of the code for ranges reaching $FFF (C39_claim_false, concrete witness). C39_intersects_partial is the exact characterisation for all ranges the API can build."
  },
  {
   "property": "C40",
   "status": "proved",
   "theorems": [
    "C8S.C40_listing",
    "C8S.C40_mem",
    "C8S.C40_empty_iff"
   ],
   "note": ""
  },
  {
   "property": "C41",
   "status": "proved",
   "theorems": [
    "C8S.C41_overlap"
   ],
   "note": ""
  },
  {
   "property": "C42",
   "status": "proved",
   "theorems": [
    "C8S.C42_decodes",
    "C8S.C42_injective"
   ],
   "note": ""
  },
  {
   "property": "C43",
   "status": "proved",
   "theorems": [
    "C8S.C43_lines",
    "C8S.C43_sizes",
    "C8S.C43_one_end"
   ],
   "note": ""
  },
  {
   "property": "C44",
   "status": "proved",
   "theorems": [
    "C8S.C44_panics_iff",
    "C8S.C44_assembled"
   ],
   "note": ""
  },
  {
   "property": "C45",
   "status": "proved",
   "theorems": [
    "C8S.C45_failure",
    "C8S.C45_output",
    "C8S.C45_success",
    "C8S.C45_status",
    "C8S.C45_status_iff"
   ],
   "note": ""
  },
  {
   "property": "C46",
   "status": "proved",
   "theorems": [
    "C8S.C46_no_panic",
    "C8S.C46_no_program_name"
   ],
   "note": "C46_no_panic is for argument vectors with a program name; C46_no_program_name shows the panic for an empty one. Failure of println! and stack exhaustion are outside the model."
  },
  {
   "property": "C47",
   "status": "proved",
   "theorems": [
    "C8S.C47_iff",
    "C8S.C47_content",
    "C8S.C47_unique",
    "C8S.C47_intended"
   ],
   "note": "C47_iff, C47_content and C47_unique hold for every source text and width of the machine word, with binary literals read modulo 2 to the width as the code does; C47_intended is the same with the intended reading for texts whose binary literals fit the word."
  },
  {
   "property": "C48",
   "status": "proved",
   "theorems": [
    "C8S.C48_same_content",
    "C8S.C48_destination",
    "C8S.C48_stdout_only"
   ],
   "note": ""
  },
  {
   "property": "C49",
   "status": "proved",
   "theorems": [
    "C8S.C49_parse_error_display",
    "C8S.C49_semantic",
    "C8S.C49_printed",
    "C8S.C49_overlap_reports",
    "C8S.C49_range_display"
   ],
   "note": ""
  },
  {
   "property": "C50",
   "status": "proved",
   "theorems": [
    "C8S.C50_help_version",
    "C8S.C50_usage",
    "C8S.C50_assembles"
   ],
   "note": ""
  },
  {
   "property": "C51",
   "status": "proved",
   "theorems": [
    "C8S.C51_first_fault",
    "C8S.C51_error_iff",
    "C8S.C51_local",
    "C8S.C51_unique"
   ],
   "note": ""
  },
  {
   "property": "C52",
   "status": "proved",
   "theorems": [
    "C8S.C52_ranges",
    "C8S.C52_labels",
    "C8S.C52_memory"
   ],
   "note": ""
  },
  {
   "property": "C53",
   "status": "proved",
   "theorems": [
    "C8S.C53_lines"
   ],
   "note": ""
  },
  {
   "property": "C54",
   "status": "proved",
   "theorems": [
    "C8S.C54_expected",
    "C8S.C54_complete",
    "C8S.C54_token_iff",
    "C8S.C54_end_iff"
   ],
   "note": ""
  },
  {
   "property": "C55",
   "status": "proved",
   "theorems": [
    "C8S.C55_file_name",
    "C8S.C55_parse",
    "C8S.C55_assemble",
    "C8S.C55_describes",
    "C8S.C55_run"
   ],
   "note": ""
  },
  {
   "property": "C56",
   "status": "proved",
   "theorems": [
    "C8S.C56_token",
    "C8S.C56_unambiguous",
    "C8S.C56_syntax",
    "C8S.C56_semantic"
   ],
   "note": ""
  },
  {
   "property": "C57",
   "status": "proved",
   "theorems": [
    "C8S.C57_renamed",
    "C8S.C57_error",
    "C8S.C57_text",
    "C8S.C57_needs_injective"
   ],
   "note": ""
  },
  {
   "property": "C58",
   "status": "proved",
   "theorems": [
    "C8S.C58_inlined",
    "C8S.C58_error",
    "C8S.C58_plain",
    "C8S.C58_text"
   ],
   "note": ""
  },
  {
   "property": "C59",
   "status": "proved",
   "theorems": [
    "C8S.C59_replaced",
    "C8S.C59_data",
    "C8S.C59_split",
    "C8S.C59_encoded"
   ],
   "note": ""
  },
  {
   "property": "C60",
   "status": "proved",
   "theorems": [
    "C8S.C60_unused",
    "C8S.C60_added",
    "C8S.C60_needs_place",
    "C8S.C60_constant"
   ],
   "note": ""
  },
  {
   "property": "C61",
   "status": "proved",
   "theorems": [
    "C8S.C61_joined",
    "C8S.C61_text"
   ],
   "note": ""
  },
  {
   "property": "C62",
   "status": "proved",
   "theorems": [
    "C8S.C62_moved",
    "C8S.C62_labels"
   ],
   "note": ""
  },
  {
   "property": "C63",
   "status": "proved",
   "theorems": [
    "C8S.C63_accepted",
    "C8S.C63_rejected",
    "C8S.C63_one_meaning",
    "C8S.C63_total"
   ],
   "note": "About the hand model of the getopts 0.2.14 parser with the option table of main.rs; the crate source is not in /repo."
  },
  {
   "property": "C64",
   "status": "proved",
   "theorems": [
    "C8S.C64_help",
    "C8S.C64_version",
    "C8S.C64_assembles",
    "C8S.C64_usage",
    "C8S.C64_wrong",
    "C8S.C64_order",
    "C8S.C64_spellings",
    "C8S.C64_next_word"
   ],
   "note": "About the model of main with the hand model of getopts 0.2.14."
  },
  {
   "property": "C65",
   "status": "proved",
   "theorems": [
    "C8S.C65_source",
    "C8S.C65_reachable",
    "C8S.C65_same_run",
    "C8S.C65_memory",
    "C8S.C65_last"
   ],
   "note": ""
  },
  {
   "property": "C66",
   "status": "proved",
   "theorems": [
    "C8S.C66_idempotent",
    "C8S.C66_same_text",
    "C8S.C66_same_program"
   ],
   "note": ""
  },
  {
   "property": "C67",
   "status": "proved",
   "theorems": [
    "C8S.C67_whitespace",
    "C8S.C67_string",
    "C8S.C67_hexadecimal",
    "C8S.C67_binary",
    "C8S.C67_decimal",
    "C8S.C67_identifier"
   ],
   "note": "About the definition of the notation and of leftmost-first matching in Spec/Regex.lean; the regex crate itself is not in /repo."
  },
  {
   "property": "C68",
   "status": "proved",
   "theorems": [
    "C8S.C68_iterator",
    "C8S.C68_scanner",
    "C8S.C68_interleaved"
   ],
   "note": ""
  },
  {
   "property": "C69",
   "status": "proved",
   "theorems": [
    "C8S.C69_cause",
    "C8S.C69_has_cause",
    "C8S.C69_kind",
    "C8S.C69_other_kinds",
    "C8S.C69_scan_kind"
   ],
   "note": ""
  },
  {
   "property": "C70",
   "status": "proved",
   "theorems": [
    "C8S.C70_statements",
    "C8S.C70_removed",
    "C8S.C70_output",
    "C8S.C70_needs_one_line"
   ],
   "note": ""
  },
  {
   "property": "C71",
   "status": "proved",
   "theorems": [
    "C8S.C71_labels",
    "C8S.C71_accepted",
    "C8S.C71_bytes",
    "C8S.C71_ranges",
    "C8S.C71_text",
    "C8S.C71_text_accepted",
    "C8S.C71_needs_size"
   ],
   "note": ""
  },
  {
   "property": "C72",
   "status": "proved",
   "theorems": [
    "C8S.C72_prefix",
    "C8S.C72_assembles",
    "C8S.C72_text",
    "C8S.C72_text_accepted",
    "C8S.C72_needs_place"
   ],
   "note": ""
  },
  {
   "property": "C73",
   "status": "proved",
   "theorems": [
    "C8S.C73_tokens",
    "C8S.C73_not_end",
    "C8S.C73_lines",
    "C8S.C73_run",
    "C8S.C73_layout",
    "C8S.C73_needs_closed"
   ],
   "note": ""
  },
  {
   "property": "C74",
   "status": "proved",
   "theorems": [
    "C8S.C74_length",
    "C8S.C74_characters",
    "C8S.C74_bytes",
    "C8S.C74_bound",
    "C8S.C74_tool",
    "C8S.C74_attained"
   ],
   "note": ""
  },
  {
   "property": "C75",
   "status": "proved",
   "theorems": [
    "C8S.C75_others",
    "C8S.C75_command_line",
    "C8S.C75_success",
    "C8S.C75_prefix",
    "C8S.C75_again",
    "C8S.C75_order",
    "C8S.C75_in_place"
   ],
   "note": ""
  },
  {
   "property": "C76",
   "status": "proved",
   "theorems": [
    "C8S.C76_open",
    "C8S.C76_read",
    "C8S.C76_overlap",
    "C8S.C76_create",
    "C8S.C76_write",
    "C8S.C76_silent",
    "C8S.C76_failed"
   ],
   "note": ""
  },
  {
   "property": "C77",
   "status": "proved",
   "theorems": [
    "C8S.C77_files",
    "C8S.C77_cases",
    "C8S.C77_file_cases",
    "C8S.C77_panics",
    "C8S.C77_status",
    "C8S.C77_assembly"
   ],
   "note": ""
  },
  {
   "property": "C78",
   "status": "proved",
   "theorems": [
    "C8S.C78_decoded",
    "C8S.C78_words",
    "C8S.C78_source"
   ],
   "note": ""
  },
  {
   "property": "C79",
   "status": "proved",
   "theorems": [
    "C8S.C79_decode",
    "C8S.C79_arguments",
    "C8S.C79_panics",
    "C8S.C79_input",
    "C8S.C79_iff",
    "C8S.C79_status",
    "C8S.C79_reads",
    "C8S.C79_byte_order_mark"
   ],
   "note": ""
  },
  {
   "property": "C80",
   "status": "proved",
   "theorems": [
    "C8S.C80_same",
    "C8S.C80_commas",
    "C8S.C80_tokens",
    "C8S.C80_enough",
    "C8S.C80_needed",
    "C8S.C80_unbounded"
   ],
   "note": ""
  },
  {
   "property": "C81",
   "status": "proved",
   "theorems": [
    "C8S.C81_semantic",
    "C8S.C81_justified",
    "C8S.C81_syntax",
    "C8S.C81_not_larger"
   ],
   "note": ""
  },
  {
   "property": "C82",
   "status": "proved",
   "theorems": [
    "C8S.C82_tokens",
    "C8S.C82_program",
    "C8S.C82_output",
    "C8S.C82_matters"
   ],
   "note": ""
  },
  {
   "property": "C83",
   "status": "proved",
   "theorems": [
    "C8S.C83_notations",
    "C8S.C83_read",
    "C8S.C83_number",
    "C8S.C83_respelled"
   ],
   "note": ""
  },
  {
   "property": "C84",
   "status": "proved",
   "theorems": [
    "C8S.C84_replaced",
    "C8S.C84_one"
   ],
   "note": ""
  },
  {
   "property": "C85",
   "status": "proved",
   "theorems": [
    "C8S.C85_dropped",
    "C8S.C85_text",
    "C8S.C85_needs_place",
    "C8S.C85_last",
    "C8S.C85_trailing",
    "C8S.C85_leading",
    "C8S.C85_labels",
    "C8S.C85_labels_constant"
   ],
   "note": ""
  },
  {
   "property": "C86",
   "status": "proved",
   "theorems": [
    "C8S.C86_scanner",
    "C8S.C86_locations",
    "C8S.C86_tokens",
    "C8S.C86_statements",
    "C8S.C86_output",
    "C8S.C86_file"
   ],
   "note": ""
  },
  {
   "property": "C87",
   "status": "proved",
   "theorems": [
    "C8S.C87_blocks",
    "C8S.C87_same",
    "C8S.C87_cut",
    "C8S.C87_org",
    "C8S.C87_org_needs"
   ],
   "note": ""
  },
  {
   "property": "C88",
   "status": "proved",
   "theorems": [
    "C8S.C88_moved",
    "C8S.C88_status",
    "C8S.C88_memory",
    "C8S.C88_needs_org"
   ],
   "note": ""
  },
  {
   "property": "C89",
   "status": "proved",
   "theorems": [
    "C8S.C89_labels",
    "C8S.C89_word",
    "C8S.C89_accepted",
    "C8S.C89_bytes",
    "C8S.C89_text",
    "C8S.C89_needs_unused",
    "C8S.C89_needs_address"
   ],
   "note": ""
  },
  {
   "property": "C90",
   "status": "proved",
   "theorems": [
    "C8S.C90_accepted",
    "C8S.C90_rejected",
    "C8S.C90_end",
    "C8S.C90_unread"
   ],
   "note": ""
  },
  {
   "property": "C91",
   "status": "proved",
   "theorems": [
    "C8S.C91_bytes",
    "C8S.C91_overlap",
    "C8S.C91_unique",
    "C8S.C91_tokens",
    "C8S.C91_statements",
    "C8S.C91_text"
   ],
   "note": ""
  },
  {
   "property": "C92",
   "status": "proved",
   "theorems": [
    "C8S.C92_indented",
    "C8S.C92_listing",
    "C8S.C92_origin",
    "C8S.C92_accepted",
    "C8S.C92_decoded"
   ],
   "note": ""
  },
  {
   "property": "C93",
   "status": "proved",
   "theorems": [
    "C8S.C93_one_meaning",
    "C8S.C93_same_word",
    "C8S.C93_programs"
   ],
   "note": ""
  },
  {
   "property": "C94",
   "status": "proved",
   "theorems": [
    "C8S.C94_not_referred",
    "C8S.C94_label",
    "C8S.C94_constant"
   ],
   "note": ""
  },
  {
   "property": "C95",
   "status": "proved",
   "theorems": [
    "C8S.C95_start",
    "C8S.C95_at_end",
    "C8S.C95_ends",
    "C8S.C95_exact",
    "C8S.C95_trailing_blank"
   ],
   "note": ""
  },
  {
   "property": "C96",
   "status": "proved",
   "theorems": [
    "C8S.C96_fetches",
    "C8S.C96_executes",
    "C8S.C96_follows",
    "C8S.C96_stays",
    "C8S.C96_goes_on"
   ],
   "note": ""
  },
  {
   "property": "C97",
   "status": "proved",
   "theorems": [
    "C8S.C97_executes",
    "C8S.C97_follows",
    "C8S.C97_store_free",
    "C8S.C97_file"
   ],
   "note": ""
  },
  {
   "property": "C98",
   "status": "proved",
   "theorems": [
    "C8S.C98_lines",
    "C8S.C98_reordered",
    "C8S.C98_readable",
    "C8S.C98_detected",
    "C8S.C98_cut_off",
    "C8S.C98_followed",
    "C8S.C98_complete",
    "C8S.C98_missing_record"
   ],
   "note": ""
  },
  {
   "property": "C99",
   "status": "proved",
   "theorems": [
    "C8S.C99_runs",
    "C8S.C99_follows",
    "C8S.C99_store_free",
    "C8S.C99_stops",
    "C8S.C99_file"
   ],
   "note": ""
  },
  {
   "property": "C100",
   "status": "partial",
   "theorems": [
    "C8S.C100_directive",
    "C8S.C100_label_partial",
    "C8S.C100_text_partial",
    "C8S.C100_directive_text",
    "C8S.C100_claim_false"
   ],
   "note": "False of the code for arguments of directives (C100_claim_false); C100_directive and C100_directive_text show that it is always rejected there. C100_label_partial and C100_text_partial are the claim for every other place, that is for all operands of instructions."
  },
  {
   "property": "C101",
   "status": "proved",
   "theorems": [
    "C8S.C101_tokens",
    "C8S.C101_short",
    "C8S.C101_run",
    "C8S.C101_agree"
   ],
   "note": "The width of usize is a parameter of the model (class Target, at least 16 bits); all other theorems hold for every width."
  },
  {
   "property": "C102",
   "status": "proved",
   "theorems": [
    "C8S.C102_read_back",
    "C8S.C102_rejected",
    "C8S.C102_same"
   ],
   "note": ""
  },
  {
   "property": "C103",
   "status": "proved",
   "theorems": [
    "C8S.C103_semantic",
    "C8S.C103_token",
    "C8S.C103_lexical",
    "C8S.C103_end",
    "C8S.C103_overlap",
    "C8S.C103_all"
   ],
   "note": ""
  },
  {
   "property": "C104",
   "status": "proved",
   "theorems": [
    "C8S.C104_instruction",
    "C8S.C104_panic",
    "C8S.C104_error"
   ],
   "note": ""
  },
  {
   "property": "C105",
   "status": "proved",
   "theorems": [
    "C8S.C105_tokens",
    "C8S.C105_assemble",
    "C8S.C105_append",
    "C8S.C105_file",
    "C8S.C105_main",
    "C8S.C105_builds",
    "C8S.C105_range",
    "C8S.C105_range_wraps"
   ],
   "note": ""
  },
  {
   "property": "C106",
   "status": "proved",
   "theorems": [
    "C8S.C106_one",
    "C8S.C106_messages",
    "C8S.C106_files",
    "C8S.C106_operands"
   ],
   "note": ""
  },
  {
   "property": "C107",
   "status": "proved",
   "theorems": [
    "C8S.C107_read",
    "C8S.C107_write",
    "C8S.C107_stdout",
    "C8S.C107_lines",
    "C8S.C107_same_run",
    "C8S.C107_received",
    "C8S.C107_messages",
    "C8S.C107_printed"
   ],
   "note": ""
  },
  {
   "property": "C108",
   "status": "proved",
   "theorems": [
    "C8S.C108_any_table",
    "C8S.C108_hash_table",
    "C8S.C108_seed"
   ],
   "note": ""
  },
  {
   "property": "C109",
   "status": "proved",
   "theorems": [
    "C8S.C109_after",
    "C8S.C109_statements",
    "C8S.C109_first_error",
    "C8S.C109_accepted",
    "C8S.C109_repair"
   ],
   "note": ""
  },
  {
   "property": "C110",
   "status": "proved",
   "theorems": [
    "C8S.C110_layout",
    "C8S.C110_instruction",
    "C8S.C110_reported",
    "C8S.C110_rounds",
    "C8S.C110_places",
    "C8S.C110_upwards"
   ],
   "note": ""
  },
  {
   "property": "C111",
   "status": "proved",
   "theorems": [
    "C8S.C111_linked",
    "C8S.C111_unique",
    "C8S.C111_shared",
    "C8S.C111_missing",
    "C8S.C111_alone"
   ],
   "note": ""
  },
  {
   "property": "C112",
   "status": "proved",
   "theorems": [
    "C8S.C112_reported",
    "C8S.C112_where",
    "C8S.C112_outside_ascii",
    "C8S.C112_rejected",
    "C8S.C112_byte_order_mark"
   ],
   "note": ""
  },
  {
   "property": "C113",
   "status": "proved",
   "theorems": [
    "C8S.C113_same",
    "C8S.C113_scanner",
    "C8S.C113_parser",
    "C8S.C113_assembler",
    "C8S.C113_linear",
    "C8S.C113_overlaps",
    "C8S.C113_quadratic"
   ],
   "note": ""
  },
  {
   "property": "C114",
   "status": "proved",
   "theorems": [
    "C8S.C114_runs_on",
    "C8S.C114_made",
    "C8S.C114_same",
    "C8S.C114_packed"
   ],
   "note": ""
  },
  {
   "property": "C115",
   "status": "proved",
   "theorems": [
    "C8S.C115_labels",
    "C8S.C115_accepted",
    "C8S.C115_kept",
    "C8S.C115_patched",
    "C8S.C115_image",
    "C8S.C115_distance",
    "C8S.C115_text"
   ],
   "note": ""
  },
  {
   "property": "C116",
   "status": "proved",
   "theorems": [
    "C8S.C116_labels",
    "C8S.C116_accepted",
    "C8S.C116_kept",
    "C8S.C116_patched",
    "C8S.C116_image",
    "C8S.C116_text"
   ],
   "note": ""
  },
  {
   "property": "C117",
   "status": "proved",
   "theorems": [
    "C8S.C117_removed",
    "C8S.C117_needed",
    "C8S.C117_constant",
    "C8S.C117_constant_needed",
    "C8S.C117_misspelt",
    "C8S.C117_supplied",
    "C8S.C117_supplied_constant"
   ],
   "note": ""
  },
  {
   "property": "C118",
   "status": "proved",
   "theorems": [
    "C8S.C118_empty",
    "C8S.C118_run",
    "C8S.C118_statements",
    "C8S.C118_output",
    "C8S.C118_last",
    "C8S.C118_next",
    "C8S.C118_needs_closed"
   ],
   "note": ""
  },
  {
   "property": "C119",
   "status": "proved",
   "theorems": [
    "C8S.C119_final",
    "C8S.C119_join",
    "C8S.C119_insert",
    "C8S.C119_text",
    "C8S.C119_one_line"
   ],
   "note": ""
  },
  {
   "property": "C120",
   "status": "proved",
   "theorems": [
    "C8S.C120_lexical",
    "C8S.C120_never",
    "C8S.C120_syntax",
    "C8S.C120_semantic"
   ],
   "note": ""
  },
  {
   "property": "C121",
   "status": "proved",
   "theorems": [
    "C8S.C121_accepted",
    "C8S.C121_reported",
    "C8S.C121_addresses",
    "C8S.C121_kept",
    "C8S.C121_word",
    "C8S.C121_text"
   ],
   "note": ""
  },
  {
   "property": "C122",
   "status": "proved",
   "theorems": [
    "C8S.C122_removed",
    "C8S.C122_addresses",
    "C8S.C122_text",
    "C8S.C122_needs_data"
   ],
   "note": ""
  },
  {
   "property": "C123",
   "status": "proved",
   "theorems": [
    "C8S.C123_same",
    "C8S.C123_accepted",
    "C8S.C123_reported",
    "C8S.C123_addresses",
    "C8S.C123_kept",
    "C8S.C123_word",
    "C8S.C123_text"
   ],
   "note": ""
  },
  {
   "property": "C124",
   "status": "proved",
   "theorems": [
    "C8S.C124_tokens",
    "C8S.C124_text",
    "C8S.C124_tokens_least",
    "C8S.C124_labels"
   ],
   "note": ""
  },
  {
   "property": "C125",
   "status": "proved",
   "theorems": [
    "C8S.C125_files",
    "C8S.C125_source",
    "C8S.C125_lines",
    "C8S.C125_joined"
   ],
   "note": ""
  },
  {
   "property": "C126",
   "status": "proved",
   "theorems": [
    "C8S.C126_complete",
    "C8S.C126_unique",
    "C8S.C126_file",
    "C8S.C126_text",
    "C8S.C126_console",
    "C8S.C126_bytes",
    "C8S.C126_process",
    "C8S.C126_process_unique",
    "C8S.C126_builds"
   ],
   "note": ""
  },
  {
   "property": "C127",
   "status": "proved",
   "theorems": [
    "C8S.C127_parse",
    "C8S.C127_parse_unique",
    "C8S.C127_assemble",
    "C8S.C127_write_built",
    "C8S.C127_write"
   ],
   "note": ""
  },
  {
   "property": "C128",
   "status": "proved",
   "theorems": [
    "C8S.C128_answers",
    "C8S.C128_asked",
    "C8S.C128_touches",
    "C8S.C128_none",
    "C8S.C128_refused",
    "C8S.C128_name"
   ],
   "note": ""
  },
  {
   "property": "C129",
   "status": "proved",
   "theorems": [
    "C8S.C129_steps",
    "C8S.C129_sufficient",
    "C8S.C129_code",
    "C8S.C129_run",
    "C8S.C129_process"
   ],
   "note": ""
  },
  {
   "property": "C130",
   "status": "proved",
   "theorems": [
    "C8S.C130_unique",
    "C8S.C130_deviates",
    "C8S.C130_success",
    "C8S.C130_exact",
    "C8S.C130_short",
    "C8S.C130_repaired",
    "C8S.C130_repair"
   ],
   "note": ""
  },
  {
   "property": "C131",
   "status": "proved",
   "theorems": [
    "C8S.C131_patch",
    "C8S.C131_scan",
    "C8S.C131_code",
    "C8S.C131_tool",
    "C8S.C131_patched",
    "C8S.C131_needed"
   ],
   "note": ""
  },
  {
   "property": "C132",
   "status": "proved",
   "theorems": [
    "C8S.C132_code",
    "C8S.C132_repaired",
    "C8S.C132_decoded",
    "C8S.C132_formats",
    "C8S.C132_padding"
   ],
   "note": ""
  },
  {
   "property": "C133",
   "status": "proved",
   "theorems": [
    "C8S.C133_code",
    "C8S.C133_exact",
    "C8S.C133_differs",
    "C8S.C133_listing",
    "C8S.C133_writer",
    "C8S.C133_tool"
   ],
   "note": ""
  },
  {
   "property": "C134",
   "status": "proved",
   "theorems": [
    "C8S.C134_code",
    "C8S.C134_changes",
    "C8S.C134_repaired",
    "C8S.C134_labels"
   ],
   "note": ""
  },
  {
   "property": "C135",
   "status": "proved",
   "theorems": [
    "C8S.C135_grammar",
    "C8S.C135_returns",
    "C8S.C135_comment",
    "C8S.C135_runs",
    "C8S.C135_same",
    "C8S.C135_exact"
   ],
   "note": ""
  }
 ]
}
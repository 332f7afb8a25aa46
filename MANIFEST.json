{
 "claims": [
  {
   "property": "C01",
   "status": "proved",
   "theorems": [
    "Cellular.Props.C01_remove_all_whitespace",
    "Cellular.Props.C01_remove_all_quotes",
    "Cellular.Props.C01_remove_all_refused"
   ],
   "note": "Proved at byte level with frame condition."
  },
  {
   "property": "C02",
   "status": "partial",
   "theorems": [
    "Cellular.Props.C02_remove_leading",
    "Cellular.Props.C02_remove_trailing_partial",
    "Cellular.Props.C02_witness_two_chars",
    "Cellular.Props.C02_witness_all_white",
    "Cellular.Props.C02_trimmed_total",
    "Cellular.Props.C02_trailing_exact"
   ],
   "note": "Leading trimming proved in full. Trailing trimming is false of the code for strings of at most two characters and for all-white strings (witness theorems); proved otherwise. C02_trailing_exact: the exact result for every text (C02_trimmed_total)."
  },
  {
   "property": "C03",
   "status": "proved",
   "theorems": [
    "Cellular.Props.C03_unquote",
    "Cellular.Props.C03_unquoted_unchanged",
    "Cellular.Props.C03_witness_empty"
   ],
   "note": "Proved for quoted texts of 1..254 characters as stated; the empty quoted text is outside the property and is shown to be left quoted (witness)."
  },
  {
   "property": "C04",
   "status": "proved",
   "theorems": [
    "Cellular.Props.C04_tokens_are_fields"
   ],
   "note": "Proved for the caller's tokenising loop over memory, any valid string."
  },
  {
   "property": "C05",
   "status": "proved",
   "theorems": [
    "Cellular.Props.C05_prefix_present_iff",
    "Cellular.Props.C05_remove_prefix",
    "Cellular.Props.C05_remove_prefix_refused"
   ],
   "note": "Proved."
  },
  {
   "property": "C06",
   "status": "proved",
   "theorems": [
    "Cellular.Props.C06_hex_roundtrip",
    "Cellular.Props.C06_hex_too_small",
    "Cellular.Props.C06_hex_bounded",
    "Cellular.Props.C06_witness_exact_fit",
    "Cellular.Props.C06_hex_any_text",
    "Cellular.Props.C06_witness_not_hex"
   ],
   "note": "Proved; the code needs a capacity one larger than the decoded size (witness for an exact fit). C06_hex_any_text: exact result on every text; a pair that is not hexadecimal is stored as 0xFF without an error (witness)."
  },
  {
   "property": "C07",
   "status": "partial",
   "theorems": [
    "Cellular.Props.C07_check_error_code_partial",
    "Cellular.Props.C07_witness_hang",
    "Cellular.Props.C07_texts",
    "Cellular.Props.C07_exact"
   ],
   "note": "Proved for key lists of at most 255 keys; for 256 or more keys without a match the loop never terminates (C07_witness_hang, for every fuel). C07_exact: for lists of any length, whether and what the function returns."
  },
  {
   "property": "C08",
   "status": "partial",
   "theorems": [
    "Cellular.Props.C08_strtoi_faithful_partial",
    "Cellular.Props.C08_strtoi_roundtrip",
    "Cellular.Props.C08_strtoi_no_digits",
    "Cellular.Props.C08_witness_wrap_64bit",
    "Cellular.Props.C08_witness_saturate_32bit",
    "Cellular.Props.C08_every_text",
    "Cellular.Props.C08_one_number",
    "Cellular.Props.C08_exact",
    "Cellular.Props.C08_faithful_iff",
    "Cellular.Props.C08_hex_prefix",
    "Cellular.Props.C08_hex_prefix_alone"
   ],
   "note": "Round trip and refusal proved; out-of-range numbers are reported as success with a different value on both 32 and 64 bit long (witnesses). Base 16 with the prefix 0x: C08_hex_prefix. C08_every_text/C08_one_number/C08_exact: every text starts with exactly one number (or none), and the result is that number as held by a long and reduced to int32; C08_faithful_iff: the value is the number itself exactly when it fits in int32."
  },
  {
   "property": "C09",
   "status": "proved",
   "theorems": [
    "Cellular.Props.C09_helpers_memory_safe",
    "Cellular.Props.C09_strdup",
    "Cellular.Props.C09_check_error_code_no_ub",
    "Cellular.Props.C09_witness_multichar_delimiter"
   ],
   "note": "Proved for every helper with the delimiters the library uses (one character); a multi-character delimiter set can make the tokenizer dereference NULL (witness)."
  },
  {
   "property": "C10",
   "status": "partial",
   "theorems": [
    "Cellular.Props.C10_exact",
    "Cellular.Props.C10_lines_delivered_partial",
    "Cellular.Props.C10_chunking_irrelevant_partial",
    "Cellular.Props.C10_never_stuck",
    "Cellular.Props.C10_witness_dropped_lines",
    "Cellular.Props.C10_witness_long_line"
   ],
   "note": "Proved by refinement of the buffer machine to a receiver without buffer: any byte stream whose lines the port's handlers accept, cut into reads in any way, is delivered line by line, once, in order. False of the code for refused lines (rest of the read lost) and lines filling the buffer (witnesses); C10_exact is the exact law for every sequence of reads of an idle library, these included."
  },
  {
   "property": "C11",
   "status": "partial",
   "theorems": [
    "Cellular.Props.C11_memory_safe_partial",
    "Cellular.Props.C11_witness_late_data",
    "Cellular.Props.C11_loop_progress",
    "Cellular.Props.C11_only_late_data"
   ],
   "note": "Proved for all histories, splits, sizes, tables and callbacks that stay in their text: C11_memory_safe_partial without announced data, and C11_only_late_data with it - undefined behaviour is possible only after a data header that belongs to no pending data command, which does dereference NULL (witness)."
  },
  {
   "property": "C12",
   "status": "partial",
   "theorems": [
    "Cellular.Props.C12_exact",
    "Cellular.Props.C12_stops_when_no_byte",
    "Cellular.Props.C12_drains_partial",
    "Cellular.Props.C12_witness_stall"
   ],
   "note": "False of the code: a read that exactly fills the buffer makes the next read report no byte although bytes are pending (witness). C12_exact: the loop always ends, and with everything read except in that case."
  },
  {
   "property": "C13",
   "status": "partial",
   "theorems": [
    "Cellular.Props.C13_lines_unaltered_partial",
    "Cellular.Props.C13_lines_unaltered_fits_partial",
    "Cellular.Props.C13_witness_altered",
    "Cellular.Props.C13_witness_lost"
   ],
   "note": "Proved for every history of reads without overflow; with an overflow the property is false (two witnesses: altered lines, lost short response)."
  },
  {
   "property": "C14",
   "status": "partial",
   "theorems": [
    "Cellular.Props.C14_exact",
    "Cellular.Props.C14_classification_partial",
    "Cellular.Props.C14_witness_long_lines",
    "Cellular.Props.C14_witness_empty_prefix"
   ],
   "note": "Proved for non-empty lines and prefixes of at most 256 characters; longer lines lose their prefix and an empty awaited prefix makes every prefixed line undefined (witnesses, proved for all such lines). C14_exact: the exact class of every line for every pending command and awaited prefix."
  },
  {
   "property": "C15",
   "status": "partial",
   "theorems": [
    "Cellular.Props.C15_one_response_per_command",
    "Cellular.Props.C15_response_partial",
    "Cellular.Props.C15_first_line_partial",
    "Cellular.Props.C15_second_line_partial",
    "Cellular.Props.C15_witness_second_line",
    "Cellular.Props.C15_witness_long_urc"
   ],
   "note": "Contents, order and status proved for multi-line, single-line and no-result-code types with URCs interleaved anywhere and any cutting into reads; second line of a single-line command; never more responses than commands for all histories (unconditional). Response lines of any length. Missing: buffer overflow; unsolicited codes longer than 256 characters are taken for response lines (C15_witness_long_urc)."
  },
  {
   "property": "C16",
   "status": "partial",
   "theorems": [
    "Cellular.Props.C16_chunking_irrelevant_partial",
    "Cellular.Props.C16_data_partial",
    "Cellular.Props.C16_fits_partial",
    "Cellular.Props.C16_witness_overflow"
   ],
   "note": "Proved by refinement to a parser of streams into lines and data blocks: any contents, any cutting into reads, any header recogniser of the port (with laws), URCs before and after. Missing: blocks that do not fit the buffer (false of the code: witness), headers after which the command does not expect data (C11 witness)."
  },
  {
   "property": "C17",
   "status": "proved",
   "theorems": [
    "Cellular.Props.C17_sent_exactly"
   ],
   "note": "Proved for every command, type and prefix; short sends of the transport are ignored by the code and not modelled."
  },
  {
   "property": "C18",
   "status": "partial",
   "theorems": [
    "Cellular.Props.C18_prefix_stored_partial",
    "Cellular.Props.C18_no_stale_prefix",
    "Cellular.Props.C18_witness_long_prefix"
   ],
   "note": "Proved exactly for prefixes below 32 characters; from 32 on the stored copy has no terminator (proved for all such prefixes)."
  },
  {
   "property": "C19",
   "status": "proved",
   "theorems": [
    "Cellular.Props.C19_check_accepts_iff_sorted",
    "Cellular.Props.C19_lookup",
    "Cellular.Props.C19_witness_unsorted_misses"
   ],
   "note": "Proved for every table; lookup in an unsorted table can miss (witness)."
  },
  {
   "property": "C20",
   "status": "partial",
   "theorems": [
    "Cellular.Props.C20_witness_init_accepts_unsorted",
    "Cellular.Props.C20_check_refuses_unsorted"
   ],
   "note": "The table check refuses unsorted tables (proved); library initialisation ignores the result of the check and succeeds (C20_witness_init_accepts_unsorted)."
  },
  {
   "property": "C21",
   "status": "partial",
   "theorems": [
    "Cellular.Props.C21_defined_iff",
    "Cellular.Props.C21_prefixed_urc_delivery_partial",
    "Cellular.Props.C21_plain_urc_delivery",
    "Cellular.Props.C21_witness_long_line_dropped",
    "Cellular.Props.C21_witness_empty_name_corrupted",
    "Cellular.Props.C21_witness_empty_name_null",
    "Cellular.Props.C21_colons_before_name",
    "Cellular.Props.C21_only_colons",
    "Cellular.Props.C21_witness_name_at_end",
    "Cellular.Props.C21_heap_exhausted"
   ],
   "note": "Complete law for lines of at most 256 characters: proper lines, leading colons (C21_colons_before_name), only colons, heap exhausted. Longer lines are dropped and '+:x' is corrupted or dereferences NULL depending on the C library (witnesses)."
  },
  {
   "property": "C22",
   "status": "proved",
   "theorems": [
    "Cellular.Props.C22_one_at_a_time",
    "Cellular.Props.C22_exclusive",
    "Cellular.Props.C22_waits",
    "Cellular.Props.C22_start_once"
   ],
   "note": "Proved for all schedules of any number of threads and the receive task: at most one thread executes a request, everything done for a request happens while it is in progress, a request starts only after all earlier ones returned."
  },
  {
   "property": "C23",
   "status": "partial",
   "theorems": [
    "Cellular.Props.C23_own_result_partial",
    "Cellular.Props.C23_recent_result_partial",
    "Cellular.Props.C23_return_law",
    "Cellular.Props.C23_success_was_delivered",
    "Cellular.Props.C23_late_result_witness",
    "Cellular.Props.C23_stray_result_witness"
   ],
   "note": "Proved if no request timed out, no data send failed, and the modem is silent while a command is about to be sent (OwnResult); without the last assumption in the weaker form RecentResult. Unconditionally: the law of what a request returns. False otherwise (two witnesses: late result after a timeout, stray result before sending). Histories with time-outs that were unanswered: C85."
  },
  {
   "property": "C24",
   "status": "partial",
   "theorems": [
    "Cellular.Props.C24_own_lines_partial",
    "Cellular.Props.C24_recent_lines_partial",
    "Cellular.Props.C24_leftover_witness"
   ],
   "note": "As C23. Witness: lines of a response that timed out are handed to the next request's callback."
  },
  {
   "property": "C25",
   "status": "partial",
   "theorems": [
    "Cellular.Props.C25_once_while_pending_partial",
    "Cellular.Props.C25_no_null_call_partial",
    "Cellular.Props.C25_late_callback_witness",
    "Cellular.Props.C25_null_call_witness",
    "Cellular.Props.C25_twice_witness"
   ],
   "note": "Proved, with absence of calls through NULL, if no request timed out and no data send failed; any modem behaviour. False otherwise (witnesses: callback after return, NULL call, callback twice)."
  },
  {
   "property": "C26",
   "status": "partial",
   "theorems": [
    "Cellular.Props.C26_data_after_ok",
    "Cellular.Props.C26_pattern_after_data",
    "Cellular.Props.C26_sent_length",
    "Cellular.Props.C26_success",
    "Cellular.Props.C26_nothing_pending",
    "Cellular.Props.C26_no_command_left_partial",
    "Cellular.Props.C26_left_pending_witness",
    "Cellular.Props.C26_left_pending_effect_witness"
   ],
   "note": "Order of data and end pattern, reported length, meaning of success: proved in all executions. Nothing left pending: proved unless the transport refused data (exact law C26_nothing_pending; false otherwise, witness)."
  },
  {
   "property": "C27",
   "status": "partial",
   "theorems": [
    "Cellular.Props.C27_tokens",
    "Cellular.Props.C27_data_prefix",
    "Cellular.Props.C27_send_prefix",
    "Cellular.Props.C27_scoped",
    "Cellular.Props.C27_prefix_late_witness"
   ],
   "note": "Tokens and callbacks in effect, comparisons with tokens and fetching of callbacks: proved in all executions. Missing: a prefix callback already fetched by the receive task may be called after its request timed out (witness)."
  },
  {
   "property": "C28",
   "status": "partial",
   "theorems": [
    "Cellular.Props.C28_bars_in_range_partial",
    "Cellular.Props.C28_bars_monotone",
    "Cellular.Props.C28_unsupported_refused",
    "Cellular.Props.C28_thresholds",
    "Cellular.Props.C28_positive_invalid",
    "Cellular.Props.C28_no_destination",
    "Cellular.Props.C28_witness_positive"
   ],
   "note": "Exact number of thresholds exceeded, monotone and refused parts in full; range for non-positive dBm values; positive values give 255 (witness)."
  },
  {
   "property": "C29",
   "status": "partial",
   "theorems": [
    "Cellular.Props.C29_witness_invalid_shown_as_one_bar",
    "Cellular.Props.C29_invalid_signal_lowest_partial"
   ],
   "note": "False of the code: the invalid marker shows as one bar with success (witness). Proved: never more than one bar."
  },
  {
   "property": "C30",
   "status": "proved",
   "theorems": [
    "Cellular.Props.C30_csq_rssi",
    "Cellular.Props.C30_csq_ber"
   ],
   "note": "Proved over the whole integer domain."
  },
  {
   "property": "C31",
   "status": "proved",
   "theorems": [
    "Cellular.Props.C31_table_invariants",
    "Cellular.Props.C31_valid_socket",
    "Cellular.Props.C31_create",
    "Cellular.Props.C31_create_refused_no_change",
    "Cellular.Props.C31_success_iff_handle"
   ],
   "note": "Proved over all histories, dynamic and static socket allocation."
  },
  {
   "property": "C32",
   "status": "partial",
   "theorems": [
    "Cellular.Props.C32_witness_lost_socket",
    "Cellular.Props.C32_witness_same_socket",
    "Cellular.Props.C32_dynamic_distinct_partial",
    "Cellular.Props.C32_static_fails_only_full",
    "Cellular.Props.C32_ends",
    "Cellular.Props.C32_dynamic_may_lack_memory",
    "Cellular.Props.C32_serialised_partial"
   ],
   "note": "False of the code: overlapping creations lose a socket (dynamic) or share one (static), witnesses. Proved: distinct handles with dynamic allocation; full claim for serialised callers."
  },
  {
   "property": "C33",
   "status": "partial",
   "theorems": [
    "Cellular.Props.C33_remove_live",
    "Cellular.Props.C33_remove_unknown_partial",
    "Cellular.Props.C33_witness_double_remove",
    "Cellular.Props.C33_close_removes_all",
    "Cellular.Props.C33_close_frees_only_sockets"
   ],
   "note": "Proved for live sockets and for unknown handles whose memory is readable (always, with static sockets). A second removal of a dynamically allocated socket reads freed memory (witness)."
  },
  {
   "property": "C34",
   "status": "proved",
   "theorems": [
    "Cellular.Props.C34_libInit_all_or_nothing",
    "Cellular.Props.C34_retry_possible",
    "Cellular.Props.C34_commonInit_all_or_nothing"
   ],
   "note": "Proved for _Cellular_LibInit and Cellular_CommonInit, every combination of failing steps; receive task represented by its life time (its post-abort access is C37)."
  },
  {
   "property": "C35",
   "status": "proved",
   "theorems": [
    "Cellular.Props.C35_at_most_one",
    "Cellular.Props.C35_second_init_refused",
    "Cellular.Props.C35_cleanup_then_init",
    "Cellular.Props.C35_cleanup_null"
   ],
   "note": "Proved over all histories of init and cleanup."
  },
  {
   "property": "C36",
   "status": "partial",
   "theorems": [
    "Cellular.Props.C36_witness_dangling_handle",
    "Cellular.Props.C36_handle_partial"
   ],
   "note": "False of the code when a modem module step fails: the handle dangles (witness). Proved for all failures inside the library and for success."
  },
  {
   "property": "C37",
   "status": "partial",
   "theorems": [
    "Cellular.Props.C37_witness_use_after_free",
    "Cellular.Props.C37_witness_failed_open",
    "Cellular.Props.C37_shutdown_partial",
    "Cellular.Props.C37_objects_live_partial",
    "Cellular.Props.C37_joined_safe"
   ],
   "note": "False of the code: the receive task reads the shutdown callback from the freed context (witnesses for cleanup and for failed open). Proved for every schedule: this is the only such access; safe if the task's end is awaited."
  },
  {
   "property": "C38",
   "status": "proved",
   "theorems": [
    "Cellular.Props.C38_closed_library_no_effect",
    "Cellular.Props.C38_null_argument_no_effect"
   ],
   "note": "Proved for the thirteen 3GPP API functions of the model."
  },
  {
   "property": "C39",
   "status": "proved",
   "theorems": [
    "Cellular.Props.C39_translation"
   ],
   "note": "Proved."
  },
  {
   "property": "C40",
   "status": "partial",
   "theorems": [
    "Cellular.Props.C40_in_range",
    "Cellular.Props.C40_out_of_range_refused_partial",
    "Cellular.Props.C40_witness_wrapped_lac"
   ],
   "note": "Ranges proved over all histories of texts. Refusal proved for every value above the field's range that fits 31 bits; larger numbers wrap (witness)."
  },
  {
   "property": "C41",
   "status": "partial",
   "theorems": [
    "Cellular.Props.C41_urc_event_partial",
    "Cellular.Props.C41_witness_query_fires"
   ],
   "note": "Exact event law proved for URCs; query answers call the callback too (witness)."
  },
  {
   "property": "C42",
   "status": "partial",
   "theorems": [
    "Cellular.Props.C42_status_only_partial",
    "Cellular.Props.C42_no_stale_location",
    "Cellular.Props.C42_initial",
    "Cellular.Props.C42_witness_location_after_loss",
    "Cellular.Props.C42_witness_stale_tac"
   ],
   "note": "Proved for texts carrying only the status, and that no stale location survives any not-registered text. False in general: fields after a not-registered status are stored, and the TAC is never invalidated (witnesses)."
  },
  {
   "property": "C43",
   "status": "proved",
   "theorems": [
    "Cellular.Props.C43_reject_only_when_denied"
   ],
   "note": "Proved for every text and record."
  },
  {
   "property": "C44",
   "status": "partial",
   "theorems": [
    "Cellular.Props.C44_values",
    "Cellular.Props.C44_exact",
    "Cellular.Props.C44_refused_text",
    "Cellular.Props.C44_decoded_partial",
    "Cellular.Props.C44_witness_wcdma",
    "Cellular.Props.C44_witness_empty_field",
    "Cellular.Props.C44_witness_large_cell_id",
    "Cellular.Props.C44_report_partial"
   ],
   "note": "Proved for access technologies 0,3,7,8,9 and cell ids below 2^31, with and without rejection fields; 1,2,4,5,6 are stored as invalid, empty optional fields are refused (witnesses). C44_exact: for every text of at most 256 characters the exact record, status and events (texts that are longer or blank are refused without effect: C44_refused_text)."
  },
  {
   "property": "C45",
   "status": "proved",
   "theorems": [
    "Cellular.Props.C45_t3412",
    "Cellular.Props.C45_t3324",
    "Cellular.Props.C45_any_text"
   ],
   "note": "Proved for every 8-bit octet, both timers."
  },
  {
   "property": "C46",
   "status": "proved",
   "theorems": [
    "Cellular.Props.C46_psm_command"
   ],
   "note": "Proved for every setting with an 8-bit mode."
  },
  {
   "property": "C47",
   "status": "partial",
   "theorems": [
    "Cellular.Props.C47_psm_decoded_partial",
    "Cellular.Props.C47_last_field_refused_partial",
    "Cellular.Props.C47_witness_masked_failure",
    "Cellular.Props.C47_exact",
    "Cellular.Props.C47_query_exact",
    "Cellular.Props.C47_psm_query_partial"
   ],
   "note": "False of the code: an illegal field before a legal one is masked (C47_witness_masked_failure). Proved: legal responses are decoded completely; an illegal last field or a sixth field is refused. C47_exact/C47_query_exact: for every response the exact record and status, field by field."
  },
  {
   "property": "C48",
   "status": "partial",
   "theorems": [
    "Cellular.Props.C48_exact",
    "Cellular.Props.C48_meaning",
    "Cellular.Props.C48_edrx_decoded_partial",
    "Cellular.Props.C48_witness_overrun",
    "Cellular.Props.C48_edrx_safe_partial",
    "Cellular.Props.C48_edrx_ranges",
    "Cellular.Props.C48_edrx_query_partial"
   ],
   "note": "False of the code: every response with more than four well-formed lines overruns the list (C48_witness_overrun, for all such responses). Proved: at most four lines of any contents are safe, well-formed ones are reported in order. C48_edrx_ranges: no stored value exceeds its byte. C48_exact: for every answer with at most 256 entries, given through the meaning of each line (C48_meaning: every line has exactly one), the exact list and status, and the exact condition for writing outside the caller's list."
  },
  {
   "property": "C49",
   "status": "proved",
   "theorems": [
    "Cellular.Props.C49_edrx_command"
   ],
   "note": "Proved."
  },
  {
   "property": "C50",
   "status": "proved",
   "theorems": [
    "Cellular.Props.C50_pdn_command",
    "Cellular.Props.C50_pdn_result",
    "Cellular.Props.C50_invalid_refused"
   ],
   "note": "Proved: command text, result, and refusal of invalid arguments."
  },
  {
   "property": "C51",
   "status": "partial",
   "theorems": [
    "Cellular.Props.C51_exact",
    "Cellular.Props.C51_refused",
    "Cellular.Props.C51_sim_ready_partial",
    "Cellular.Props.C51_witness_locked_states_unknown",
    "Cellular.Props.C51_sim_query_partial"
   ],
   "note": "False of the code: every locked state is reported as unknown (C51_witness_locked_states_unknown, all twelve states). Proved: READY is decoded exactly. C51_exact / C51_refused: for every answer, the exact lock state and status."
  },
  {
   "property": "C52",
   "status": "proved",
   "theorems": [
    "Cellular.Props.C52_hplmn_decoded",
    "Cellular.Props.C52_empty_or_short_refused",
    "Cellular.Props.C52_witness_lower_case",
    "Cellular.Props.C52_exact",
    "Cellular.Props.C52_refused"
   ],
   "note": "Proved for upper-case hexadecimal records, any MCC/MNC; a lower-case f filler is not understood (witness). C52_exact / C52_refused: for every answer, the exact operator and status."
  },
  {
   "property": "C53",
   "status": "proved",
   "theorems": [
    "Cellular.Props.C53_exact",
    "Cellular.Props.C53_unreadable",
    "Cellular.Props.C53_cops_decoded",
    "Cellular.Props.C53_cops_name_decoded",
    "Cellular.Props.C53_out_of_range_refused",
    "Cellular.Props.C53_blank_fields"
   ],
   "note": "Proved for every mode, operator and RAT value. The operator name of a name-format answer is decoded (C53_cops_name_decoded). C53_exact / C53_unreadable: for every answer, the exact operator record and status."
  },
  {
   "property": "C54",
   "status": "partial",
   "theorems": [
    "Cellular.Props.C54_exact",
    "Cellular.Props.C54_witness_no_operator",
    "Cellular.Props.C54_registered_network_partial"
   ],
   "note": "False of the code: a +COPS answer without operator gives success with an empty PLMN (witness). Proved: success implies both commands were accepted and a numeric operator line is reported exactly. C54_exact: the exact operator codes and result for every readable answer."
  },
  {
   "property": "C55",
   "status": "partial",
   "theorems": [
    "Cellular.Props.C55_fresh_not_registered",
    "Cellular.Props.C55_no_operator",
    "Cellular.Props.C55_witness_all_queries_fail",
    "Cellular.Props.C55_service_status_partial",
    "Cellular.Props.C55_answer_like_urcs",
    "Cellular.Props.C55_service_status_values",
    "Cellular.Props.C55_service_status_values_eps",
    "Cellular.Props.C55_answer_reports",
    "Cellular.Props.C55_meaning",
    "Cellular.Props.C55_query_exact",
    "Cellular.Props.C55_reply_meaning",
    "Cellular.Props.C55_registration_exact",
    "Cellular.Props.C55_exact",
    "Cellular.Props.C55_total"
   ],
   "note": "False of the code: failed queries give success with stale contents (witness). Proved: what is reported is the library record, or the old contents only if a query failed. C55_exact (with C55_total: it covers every behaviour of the modem): the exact commands sent, record, callbacks and caller's object; C55_query_exact: one registration query, for every reply; C55_meaning: every line has exactly one meaning."
  },
  {
   "property": "C56",
   "status": "partial",
   "theorems": [
    "Cellular.Props.C56_network_time_query",
    "Cellular.Props.C56_no_answer",
    "Cellular.Props.C56_time_decoded",
    "Cellular.Props.C56_witness_missing_clock",
    "Cellular.Props.C56_success_decoded_partial",
    "Cellular.Props.C56_exact",
    "Cellular.Props.C56_refused",
    "Cellular.Props.C56_numbers",
    "Cellular.Props.C56_query_exact"
   ],
   "note": "Well-formed clock texts are decoded exactly; a text with missing fields can be reported as success (witness). C56_exact/C56_query_exact/C56_refused: for every answer the exact record and status."
  },
  {
   "property": "C57",
   "status": "partial",
   "theorems": [
    "Cellular.Props.C57_exact",
    "Cellular.Props.C57_refused",
    "Cellular.Props.C57_ip_in_bounds",
    "Cellular.Props.C57_ip_text_partial",
    "Cellular.Props.C57_witness_not_terminated"
   ],
   "note": "Proved: no overrun, the address is complete and terminated if it fits; an address as long as the buffer is stored without terminator (witness). C57_exact / C57_refused: for every answer, the exact contents of the caller's buffer and status."
  },
  {
   "property": "C58",
   "status": "proved",
   "theorems": [
    "Cellular.Props.C58_modem_info_values",
    "Cellular.Props.C58_sim_info_values",
    "Cellular.Props.C58_trimmed_text",
    "Cellular.Props.C58_imei",
    "Cellular.Props.C58_imsi",
    "Cellular.Props.C58_iccid",
    "Cellular.Props.C58_modem_info_safe",
    "Cellular.Props.C58_sim_info_safe",
    "Cellular.Props.C58_trimmed_exact",
    "Cellular.Props.C58_trimmed_refused",
    "Cellular.Props.C58_numbers_exact",
    "Cellular.Props.C58_numbers_refused"
   ],
   "note": "Proved: identity strings exact, terminated, within the fields, for all answers. Texts of at most two characters keep trailing white space (hypothesis of C58_trimmed_text). C58_trimmed_exact, C58_numbers_exact and the _refused theorems: for every answer, the exact contents of the caller's field and status."
  },
  {
   "property": "C59",
   "status": "proved",
   "theorems": [
    "Cellular.Props.C59_accepted",
    "Cellular.Props.C59_refused"
   ],
   "note": "Proved."
  },
  {
   "property": "C60",
   "status": "proved",
   "theorems": [
    "Cellular.Props.C60_events_reach_last_registration",
    "Cellular.Props.C60_socket_callbacks"
   ],
   "note": "Proved over all registration histories; socket callbacks as stored per socket (they are invoked by modem ports only)."
  },
  {
   "property": "C61",
   "status": "proved",
   "theorems": [
    "Cellular.Props.C61_rf_command"
   ],
   "note": "Proved for every library state and modem answer."
  },
  {
   "property": "C62",
   "status": "proved",
   "theorems": [
    "Cellular.Props.C62_returns_within",
    "Cellular.Props.C62_never_blocked",
    "Cellular.Props.C62_can_return_alone",
    "Cellular.Props.C62_waits_for_active",
    "Cellular.Props.C62_receive_task_goes_on"
   ],
   "note": "Proved in the interleaving model: at most thirteen own steps, never blocked; fairness of the mutex among waiters is the platform's."
  },
  {
   "property": "C63",
   "status": "proved",
   "theorems": [
    "Cellular.Props.C63_consistent_read",
    "Cellular.Props.C63_service_status",
    "Cellular.Props.C63_exclusive",
    "Cellular.Props.C63_read_in_range"
   ],
   "note": "Proved for all schedules; intermediate states of a writer are arbitrary in the model. With C40: every value read is in range."
  },
  {
   "property": "C64",
   "status": "proved",
   "theorems": [
    "Cellular.Props.C64_refused",
    "Cellular.Props.C64_sent",
    "Cellular.Props.C64_result",
    "Cellular.Props.C64_timeout",
    "Cellular.Props.C64_current_rat"
   ],
   "note": "Proved; _Cellular_GetCurrentRat included."
  },
  {
   "property": "C65",
   "status": "proved",
   "theorems": [
    "Cellular.Props.C65_no_lost_notification",
    "Cellular.Props.C65_reads_until_empty",
    "Cellular.Props.C65_wakes",
    "Cellular.Props.C65_no_spurious_wake"
   ],
   "note": "Proved for all schedules of the start-up/shutdown model (event bits, receive loop)."
  },
  {
   "property": "C66",
   "status": "partial",
   "theorems": [
    "Cellular.Props.C66_shutdown_returns_partial",
    "Cellular.Props.C66_start_returns",
    "Cellular.Props.C66_witness_busy_modem"
   ],
   "note": "Start-up proved. Shutdown proved if the modem pauses: a modem that keeps sending keeps the receive task reading and Cellular_Cleanup polling for ever (witness for every number of steps)."
  },
  {
   "property": "C67",
   "status": "proved",
   "theorems": [
    "Cellular.Props.C67_network_time",
    "Cellular.Props.C67_sim_lock",
    "Cellular.Props.C67_psm",
    "Cellular.Props.C67_edrx",
    "Cellular.Props.C67_ip",
    "Cellular.Props.C67_registered_network",
    "Cellular.Props.C67_modem_info",
    "Cellular.Props.C67_sim_info"
   ],
   "note": "Proved; the service status query, which violates it, is C55."
  },
  {
   "property": "C68",
   "status": "proved",
   "theorems": [
    "Cellular.Props.C68_null_refused",
    "Cellular.Props.C68_bad_text_refused",
    "Cellular.Props.C68_is_str_digit"
   ],
   "note": "Proved for all helpers."
  },
  {
   "property": "C69",
   "status": "partial",
   "theorems": [
    "Cellular.Props.C69_no_deadlock",
    "Cellular.Props.C69_every_call_returns",
    "Cellular.Props.C69_failed_open",
    "Cellular.Props.C69_allowed_callbacks",
    "Cellular.Props.C69_witness_callback_deadlock",
    "Cellular.Props.C69_witness_input_callback",
    "Cellular.Props.C69_witness_cleanup_in_callback"
   ],
   "note": "Proved for all schedules, calls and data when the callbacks keep a stated discipline (C69_allowed_callbacks): every call returns, no fairness assumed. False of the code for a registration-event callback that reads the registration state, an input-buffer callback that takes PktRespMutex and a callback that cleans up (witnesses). Lock skeletons: data-free, time-limited waits always return; mutex destruction not modelled."
  },
  {
   "property": "C70",
   "status": "proved",
   "theorems": [
    "Cellular.Props.C70_network_time",
    "Cellular.Props.C70_sim_lock",
    "Cellular.Props.C70_psm",
    "Cellular.Props.C70_edrx",
    "Cellular.Props.C70_modem_info",
    "Cellular.Props.C70_bytes_to_reply",
    "Cellular.Props.C70_bytes_sent",
    "Cellular.Props.C70_session",
    "Cellular.Props.C70_call"
   ],
   "note": "Proved for ports without input callback. Requests are made one at a time; what arrives from one answer to the next is shorter than the receive buffer and ends with a complete line. API level: every sequence of calls of the 13 modelled functions (C70_session)."
  },
  {
   "property": "C71",
   "status": "partial",
   "theorems": [
    "Cellular.Props.C71_fresh_partial",
    "Cellular.Props.C71_witness_stale_line"
   ],
   "note": "False of the code: lines collected for a request that timed out are given to the next request, or make it fail (C71_witness_stale_line, three forms). Proved if no earlier request timed out in the middle of its answer."
  },
  {
   "property": "C72",
   "status": "partial",
   "theorems": [
    "Cellular.Props.C72_callbacks_partial",
    "Cellular.Props.C72_pending_partial",
    "Cellular.Props.C72_refused"
   ],
   "note": "Proved for lines of at most 256 characters that fit the buffer and do not begin with \"+:\" and for accepted undefined lines, streams of any length. The last sentence is false of the code: a refused line costs the rest of its read (C72_refused says exactly what happens)."
  },
  {
   "property": "C73",
   "status": "partial",
   "theorems": [
    "Cellular.Props.C73_input_callback_partial",
    "Cellular.Props.C73_frames_partial",
    "Cellular.Props.C73_frames_idle_partial",
    "Cellular.Props.C73_declined",
    "Cellular.Props.C73_waiting",
    "Cellular.Props.C73_failing",
    "Cellular.Props.C73_witness_adjacent_frames",
    "Cellular.Props.C73_witness_frame_then_line_end",
    "Cellular.Props.C73_witness_collected_lost"
   ],
   "note": "False of the code when a frame is followed by a line end or another frame in the same read (an empty line is processed; the second frame is taken for text) and when the callback fails while response lines are collected (the lines are overwritten): witnesses. Otherwise proved: refinement to a stream-level receiver for any callback, frames directly before a line for any cut, declining callback = no callback."
  },
  {
   "property": "C74",
   "status": "proved",
   "theorems": [
    "Cellular.Props.C74_refines",
    "Cellular.Props.C74_no_leak",
    "Cellular.Props.C74_urc_copy"
   ],
   "note": "Proved by refinement: the machine with linked lists on an explicit heap behaves like Verif.Pktio for every history on which that is defined (all, with sane callbacks, except data headers that come too late: C11). C74_no_leak counts the blocks."
  },
  {
   "property": "C75",
   "status": "partial",
   "theorems": [
    "Cellular.Props.C75_calls_are_the_callbacks",
    "Cellular.Props.C75_own_data_partial",
    "Cellular.Props.C75_data_in_progress_partial",
    "Cellular.Props.C75_witness_mixed",
    "Cellular.Props.C75_witness_foreign_buffer"
   ],
   "note": "Proved if no request timed out and no data send failed (any modem behaviour, any order of evaluation). False otherwise: the callback of one request runs with the buffer of another (C75_witness_mixed, C75_witness_foreign_buffer)."
  },
  {
   "property": "C76",
   "status": "partial",
   "theorems": [
    "Cellular.Props.C76_record_partial",
    "Cellular.Props.C76_queries",
    "Cellular.Props.C76_from_open_partial"
   ],
   "note": "Proved for streams made of complete lines of at most 256 characters that fit in the receive buffer between answers, reports with values in range, undefined lines only if the port accepts them (losses otherwise: witnesses of C10, C14, C72). Requests one at a time."
  },
  {
   "property": "C77",
   "status": "partial",
   "theorems": [
    "Cellular.Props.C77_requests_defined",
    "Cellular.Props.C77_urc_calls_defined",
    "Cellular.Props.C77_calls_defined_partial",
    "Cellular.Props.C77_any_modem_partial",
    "Cellular.Props.C77_any_bytes",
    "Cellular.Props.C77_witness_newlib"
   ],
   "note": "Proved for every supply of bytes, cut by the transport to what it is asked for (contract_clipped), and every session. False of the code in two cases: more than four lines in answer to the eDRX query overrun the caller's list (C48_witness_overrun), and with a strtok_r that leaves a null pointer a line +:NAME makes the library use it (C77_witness_newlib, exact condition C21_defined_iff). Port callbacks must edit text in place (C11)."
  },
  {
   "property": "C78",
   "status": "proved",
   "theorems": [
    "Cellular.Props.C78_transfer",
    "Cellular.Props.C78_not_accepted",
    "Cellular.Props.C78_transfers",
    "Cellular.Props.C78_consent",
    "Cellular.Props.C78_defined",
    "Cellular.Props.C78_witness_send_error"
   ],
   "note": "C78_consent and C78_defined hold for every stream of bytes; the exact reports (C78_transfer, C78_not_accepted, C78_transfers) for streams with the modem's answer, prompts recognised by callbacks that turn exactly the prompt into a line (Prompts), and a transport that takes all bytes. If it does not, the pending command type is left behind (C78_witness_send_error, see C26)."
  },
  {
   "property": "C79",
   "status": "partial",
   "theorems": [
    "Cellular.Props.C79_first_delimiter",
    "Cellular.Props.C79_token_exact",
    "Cellular.Props.C79_last_exact",
    "Cellular.Props.C79_only_delimiters",
    "Cellular.Props.C79_next_token_partial",
    "Cellular.Props.C79_witness_lost",
    "Cellular.Props.C79_witness_behind_the_end"
   ],
   "note": "Proved for texts that do not start with a delimiter other than the first character of the delimiter string. False of the code otherwise; the behaviour is characterised exactly: after one skipped delimiter the rest of the text is lost (C79_witness_lost), after two or more the pointer is left behind the terminating NUL when the token is the last one (C79_witness_behind_the_end), and a text of delimiters only is undefined behaviour (C79_only_delimiters)."
  },
  {
   "property": "C80",
   "status": "proved",
   "theorems": [
    "Cellular.Props.C80_fetched",
    "Cellular.Props.C80_silent",
    "Cellular.Props.C80_session",
    "Cellular.Props.C80_witness_timeout_in_block",
    "Cellular.Props.C80_witness_late_header"
   ],
   "note": "For command type multi-line-with-data, responses that are complete or absent, and sessions that fit into the receive buffer between two answers. The hypotheses are needed: a response that stops inside a block makes the next request fail (C80_witness_timeout_in_block), a header after the result code is undefined behaviour (C80_witness_late_header)."
  },
  {
   "property": "C81",
   "status": "partial",
   "theorems": [
    "Cellular.Props.C81_late_call_refused",
    "Cellular.Props.C81_at_most_one_more",
    "Cellular.Props.C81_queue_safe",
    "Cellular.Props.C81_one_request",
    "Cellular.Props.C81_safe_if_joined",
    "Cellular.Props.C81_overlap_partial",
    "Cellular.Props.C81_task_ends",
    "Cellular.Props.C81_cleanup_can_return",
    "Cellular.Props.C81_witness_use_after_free",
    "Cellular.Props.C81_witness_check_passes",
    "Cellular.Props.C81_witness_closed_transport",
    "Cellular.Props.C81_witness_task_after_free"
   ],
   "note": "Proved for every schedule and any number of tasks: late calls are refused, at most one more command per task, the queue is never deleted under a request, the cleanup can always end, no violation if all calls have returned before. False of the code: a call that has passed the checks uses the freed context, passes the checks after libClose is finished, or sends to the closed transport (witnesses)."
  },
  {
   "property": "C82",
   "status": "partial",
   "theorems": [
    "Cellular.Props.C82_only_late_data",
    "Cellular.Props.C82_one_at_a_time",
    "Cellular.Props.C82_exclusive",
    "Cellular.Props.C82_return_law",
    "Cellular.Props.C82_sent",
    "Cellular.Props.C82_scoped",
    "Cellular.Props.C82_nothing_pending",
    "Cellular.Props.C82_result_partial",
    "Cellular.Props.C82_own_result_partial",
    "Cellular.Props.C82_recent_lines_partial",
    "Cellular.Props.C82_own_lines_partial",
    "Cellular.Props.C82_once_partial",
    "Cellular.Props.C82_no_crash_partial",
    "Cellular.Props.C82_no_crashed_partial",
    "Cellular.Props.C82_pieces",
    "Cellular.Props.C82_pieces_stray_partial",
    "Cellular.Props.C82_own_pieces_partial",
    "Cellular.Props.C82_memory_safe",
    "Cellular.Props.C82_only_stray_data_partial",
    "Cellular.Props.C82_stray_witness",
    "Cellular.Props.C82_alone",
    "Cellular.Props.C82_linearises",
    "Cellular.Props.C82_lines",
    "Cellular.Props.C82_all_lines",
    "Cellular.Props.C82_given",
    "Cellular.Props.C82_own_bytes_partial",
    "Cellular.Props.C82_leftover_witness",
    "Cellular.Props.C82_data_timeout_witness"
   ],
   "note": "Proved for all executions without restriction: one request at a time, return law, what is sent, scope of tokens and prefix callbacks, nothing pending when idle. Proved for all schedules: memory safety with callbacks that announce no data; with callbacks that announce data, undefined behaviour only after a line with announced data was not collected for a data response, and if no request timed out and headers fit their commands, only after a header for which no request waits (both happen: witnesses); refinement of the line model (C22-C27) and exactness of lines and callback texts for requests without prefix callbacks while the buffer does not overflow (C82_lines also: while no line was refused; with refused lines, C82_pieces: bytes are dropped only directly after a line that the port's handler refused); with data prefix callbacks the stream is divided exactly into lines, header+data blocks and prompts (without line end, taken up as their callback shows them) and the callbacks get exactly the texts of their pieces (C82_pieces; before a Late / Stray header); without interference the receive task does exactly one event of the sequential model, also with prefix callbacks. Results, callback ownership, no crash: for every port, with any prefix callbacks and overflow, if no request timed out before (_partial, as C23-C25); byte for byte with data prefix callbacks (C82_own_pieces_partial). False with a data prefix callback: a data receive that times out between header recognition and classification makes the receive task dereference NULL (witness)."
  },
  {
   "property": "C83",
   "status": "partial",
   "theorems": [
    "Cellular.Props.C83_pieces_partial",
    "Cellular.Props.C83_pieces_stray_partial",
    "Cellular.Props.C83_pieces_result_partial",
    "Cellular.Props.C83_bytes_partial",
    "Cellular.Props.C83_bytes_result_partial",
    "Cellular.Props.C83_answer_partial",
    "Cellular.Props.C83_result_partial"
   ],
   "note": "In the concurrent model with lines and over the byte stream, for requests with and without data prefix callbacks (C83_pieces: the answer in lines, header+data pieces and prompts, except after data announced by a line that was not collected for a data response). Missing: histories with time-outs (unanswered ones: C85) or failed data sends and a modem that talks while a command is being sent (false then: C24, C71 witnesses), byte stream version only without buffer overflow."
  },
  {
   "property": "C84",
   "status": "proved",
   "theorems": [
    "Cellular.Props.C84_service_status",
    "Cellular.Props.C84_refused"
   ],
   "note": "Requests one at a time (concurrent callers: C63, C82, C83). Reports well-formed and lines of at most 256 characters (the parser on arbitrary texts: C42-C44)."
  },
  {
   "property": "C85",
   "status": "proved",
   "theorems": [
    "Cellular.Props.C85_pieces",
    "Cellular.Props.C85_pieces_result",
    "Cellular.Props.C85_bytes_silence",
    "Cellular.Props.C85_bytes_own_result",
    "Cellular.Props.C85_bytes_own_lines",
    "Cellular.Props.C85_bytes_once",
    "Cellular.Props.C85_bytes_no_crash",
    "Cellular.Props.C85_bytes_answer",
    "Cellular.Props.C85_bytes_result",
    "Cellular.Props.C85_silence",
    "Cellular.Props.C85_no_timeout",
    "Cellular.Props.C85_own_result",
    "Cellular.Props.C85_own_lines",
    "Cellular.Props.C85_answer",
    "Cellular.Props.C85_result",
    "Cellular.Props.C85_recent_result",
    "Cellular.Props.C85_once",
    "Cellular.Props.C85_no_null_call",
    "Cellular.Props.C85_at_rest",
    "Cellular.Props.C85_own_data"
   ],
   "note": "In the concurrent model with lines, with user data, and over the byte stream. The assumption cannot be dropped (witnesses under C23, C24, C25, C75). Inherent in the protocol and not claimed: a late answer that arrives after the NEXT request was sent is taken for the answer to that one. C85_answer and C85_result are for requests without data prefix callback; with data prefix callbacks (data and prompts): C85_pieces, C85_pieces_result (over the byte stream); completeness over the byte stream without buffer overflow."
  },
  {
   "property": "C86",
   "status": "proved",
   "theorems": [
    "Cellular.Props.C86_listens_again",
    "Cellular.Props.C86_gets_back"
   ],
   "note": "In the byte-level concurrent model (Bytes). The bound is 14 * size + 13 steps of the receive task, over all interleavings with the other tasks (steps of the requesting tasks are not counted; the mutex pktRespMutex, which the requesting tasks hold only for a moment, is not modelled as blocking). Ends in undefined behaviour (states crashed/bad) are excluded by C11 and C82. A callback is one step."
  },
  {
   "property": "C87",
   "status": "partial",
   "theorems": [
    "Cellular.Props.C87_pieces_partial",
    "Cellular.Props.C87_bytes_partial",
    "Cellular.Props.C87_full_buffer_witness",
    "Cellular.Props.C87_answered",
    "Cellular.Props.C87_timeout",
    "Cellular.Props.C87_in_hand_witness",
    "Cellular.Props.C87_refused_witness"
   ],
   "note": "In the concurrent model with lines (C87_answered, C87_timeout), and over the byte stream when the receive task waits for the transport (with C86: which it gets back to), there without the exception for refused lines as long as none was dropped. The two exceptions of the statement are necessary: C87_in_hand_witness, C87_refused_witness (for a command without lines of contents, one stray line that the port's handler refuses makes the library overlook \"OK\"). With data prefix callbacks (data and prompts): C87_pieces_partial (except after data announced by a line that was not collected for a data response). Not claimed for a full buffer over the byte stream (false then: C87_full_buffer_witness)."
  }
 ]
}
{
 "claims": [
  {
   "property": "C01",
   "status": "proved",
   "theorems": [
    "Fly.RB.C01_index_is_finite_map"
   ],
   "note": "All valid histories of insert/delete; includes absence of failed asserts in the rebalancing."
  },
  {
   "property": "C02",
   "status": "proved",
   "theorems": [
    "Fly.RB.C02_lookup_cost_logarithmic"
   ],
   "note": "Comparison count of a lookup bounded by 2*log2(n+1)."
  },
  {
   "property": "C03",
   "status": "partial",
   "theorems": [
    "Fly.RB.C03_handles_stay_valid",
    "Fly.RB.C03_duplicate_insert_dangling_refuted"
   ],
   "note": "Handles of all live items stay valid for every history; but the handle of a duplicate insertion is left pointing at freed memory (refuted)."
  },
  {
   "property": "C04",
   "status": "proved",
   "theorems": [
    "Fly.RB.C04_count_exact"
   ],
   "note": ""
  },
  {
   "property": "C05",
   "status": "partial",
   "theorems": [
    "Fly.Buffer.C05_buffer_is_byte_queue",
    "Fly.Buffer.C05_request_line_split",
    "Fly.Buffer.C05_distance",
    "Fly.Buffer.C05_stray_cr_hides_line_end_refuted",
    "Fly.Buffer.C05_search_reads_unreceived_memory_refuted",
    "Fly.Buffer.C05_two_initial_chunks_lose_data_refuted"
   ],
   "note": "Queue refinement proved for every history (one initial chunk, as the server uses). The line search also looks at unreceived bytes and misses a CRLF after a stray CR: refuted."
  },
  {
   "property": "C06",
   "status": "partial",
   "theorems": [
    "Fly.Buffer.C06_buffer_count_and_capacity",
    "Fly.Buffer.C06_overflow_iff_full",
    "Fly.Buffer.C06_release_all_of_full_buffer_crashes_refuted"
   ],
   "note": "Count, capacity and overflow report proved; consuming everything in a completely full buffer crashes."
  },
  {
   "property": "C07",
   "status": "partial",
   "theorems": [
    "Fly.H2.C07_written_header_layout",
    "Fly.H2.C07_read_header",
    "Fly.H2.C07_frame_header_roundtrip",
    "Fly.H2.C07_reserved_bit_misread_refuted",
    "Fly.H2.C07_read31_contiguous_partial",
    "Fly.H2.C07_read31_chunk_crossing_refuted"
   ],
   "note": "Length, type, flags, stream id and payload pointer proved for all headers and chunk splits. The reserved bit and 31-bit payload fields crossing a chunk are misread (refuted)."
  },
  {
   "property": "C08",
   "status": "partial",
   "theorems": [
    "Fly.Hpack.C08_decode_integer",
    "Fly.Hpack.C08_encode_small_partial",
    "Fly.Hpack.C08_encode_large_iff",
    "Fly.Hpack.C08_encode_128_wrong_refuted",
    "Fly.Hpack.C08_large_integer_undefined_refuted"
   ],
   "note": "Decoding proved for all integers below 2^31 over any chunking. Encoding right exactly for integers that fit the prefix or whose low byte is the prefix mask; 128 is refuted."
  },
  {
   "property": "C09",
   "status": "proved",
   "theorems": [
    "Fly.Hpack.C09_dynamic_table_bounded"
   ],
   "note": "All insertion histories and limits."
  },
  {
   "property": "C10",
   "status": "proved",
   "theorems": [
    "Fly.Hpack.C10_dynamic_table_order"
   ],
   "note": "All insertion histories and limits."
  },
  {
   "property": "C11",
   "status": "partial",
   "theorems": [
    "Fly.Hpack.C11_table_is_canonical_partial",
    "Fly.Hpack.C11_huffman_roundtrip_partial",
    "Fly.Hpack.C11_carriage_return_aborts_refuted",
    "Fly.Hpack.C11_bad_padding_reads_beyond_refuted"
   ],
   "note": "Round trip for all strings without byte 13, any chunking; byte 13 aborts and illegal padding is not rejected."
  },
  {
   "property": "C12",
   "status": "partial",
   "theorems": [
    "Fly.H2S.C12_stream_ids_odd_and_growing",
    "Fly.H2S.C12_new_stream_accepted_iff",
    "Fly.H2S.C12_priority_opens_stream_refuted"
   ],
   "note": "All histories; a PRIORITY frame counts as opening a stream."
  },
  {
   "property": "C13",
   "status": "partial",
   "theorems": [
    "Fly.H2S.C13_live_streams_are_opened_minus_closed",
    "Fly.H2S.C13_limit_respected_partial",
    "Fly.H2S.C13_unlimited_streams_refuted"
   ],
   "note": "Bookkeeping exact on all histories; the limit would hold but is never set, so the number of streams is unbounded."
  },
  {
   "property": "C14",
   "status": "proved",
   "theorems": [
    "Fly.H2.C14_window_updates_conserve_credit"
   ],
   "note": "All histories of credits and sends."
  },
  {
   "property": "C15",
   "status": "partial",
   "theorems": [
    "Fly.Send.C15_windows_account_for_bytes",
    "Fly.Send.C15_closed_window_waits",
    "Fly.Send.C15_small_response_within_windows_partial",
    "Fly.Send.C15_window_exceeded_refuted",
    "Fly.Send.C15_frame_size_exceeded_refuted",
    "Fly.Send.C15_empty_body_never_ended_refuted"
   ],
   "note": "Accounting exact for every schedule; respected for responses smaller than both windows; violated for every larger one."
  },
  {
   "property": "C16",
   "status": "partial",
   "theorems": [
    "Fly.Send.C16_h2_body_exactly_once",
    "Fly.Send.C16_h2_frame_exactly_once_partial",
    "Fly.Send.C16_h1_exactly_once_partial",
    "Fly.Send.C16_h2_data_header_tls_partial",
    "Fly.Send.C16_h2_frame_resent_refuted",
    "Fly.Send.C16_h1_partial_write_refuted",
    "Fly.Send.C16_h1_blocked_write_refuted",
    "Fly.Send.C16_h2_data_header_resent_refuted"
   ],
   "note": "HTTP/2 bodies for every schedule; other frames if blocking happens only before the first byte; HTTP/1 only if one call takes everything, false for every other schedule."
  },
  {
   "property": "C17",
   "status": "partial",
   "theorems": [
    "Fly.Response.C17_serialized_layout",
    "Fly.Response.C17_client_reads_response",
    "Fly.Response.C17_header_injection_refuted"
   ],
   "note": "Exact layout and length for every response whose announced body length is right; values containing CRLF inject headers."
  },
  {
   "property": "C18",
   "status": "partial",
   "theorems": [
    "Fly.Response.C18_handler_body_length",
    "Fly.Response.C18_static_file_length_partial",
    "Fly.Response.C18_no_content_length",
    "Fly.Response.C18_identity_file_crashes_refuted",
    "Fly.Response.C18_unaccepted_encoding_sent_refuted"
   ],
   "note": "Handler responses and empty ones in full; static files except two negotiation outcomes for which it is refuted. HTTP/1 preparation only; encoder errors not modelled."
  },
  {
   "property": "C19",
   "status": "partial",
   "theorems": [
    "Fly.Response.C19_status_line_partial",
    "Fly.Response.C19_number_to_status",
    "Fly.Response.C19_wrong_reason_refuted"
   ],
   "note": "All statuses but 410, 411, 505, which are wrong."
  },
  {
   "property": "C20",
   "status": "partial",
   "theorems": [
    "Fly.Header.C20_header_list_refines_pairs",
    "Fly.Header.C20_conditional_add_never_duplicates",
    "Fly.Header.C20_case_variant_duplicated_refuted",
    "Fly.Header.C20_empty_name_crashes_refuted",
    "Fly.Header.C20_remove_present_header_undefined_refuted"
   ],
   "note": "All histories with non-empty NUL-free names, names compared exactly; case variants are duplicated, an empty name or the removal used for Expect is undefined behaviour."
  },
  {
   "property": "C21",
   "status": "partial",
   "theorems": [
    "Fly.Req.C21_origin_form_round_trip_partial",
    "Fly.Req.C21_connection_round_trip_partial",
    "Fly.Req.C21_empty_query_is_none",
    "Fly.Req.C21_leading_percent_of_query_cut_refuted",
    "Fly.Req.C21_connect_target_is_lost_refuted",
    "Fly.Req.C21_connect_host_port_refused_refuted",
    "Fly.Req.C21_absolute_and_asterisk_form_refused_refuted"
   ],
   "note": "Every origin-form line, at every arrival schedule, except queries that begin with a percent-encoded byte (cut); CONNECT, absolute-form and asterisk-form are refuted for all targets."
  },
  {
   "property": "C22",
   "status": "partial",
   "theorems": [
    "Fly.Req.C22_accepted_iff_partial",
    "Fly.Req.C22_connection_request_line",
    "Fly.Req.C22_spaces_and_protocol_name_refuted"
   ],
   "note": "Exact language of the parser for every byte string; it is wider than RFC 7230 (spaces, protocol name)."
  },
  {
   "property": "C23",
   "status": "partial",
   "theorems": [
    "Fly.Req.C23_414_iff_8000_partial",
    "Fly.Req.C23_endless_line_gets_no_414_refuted",
    "Fly.ReqEvent.C23_414_answer_crashes_refuted"
   ],
   "note": "Recognised for every arrival schedule of a CR-free line with CRLF, but building the 414 answer follows a null pointer; a line without CRLF is never recognised."
  },
  {
   "property": "C24",
   "status": "partial",
   "theorems": [
    "Fly.Route.C24_registration_order",
    "Fly.Route.C24_plain_routes",
    "Fly.Route.C24_first_match_partial",
    "Fly.Route.C24_method_ignored_refuted",
    "Fly.Route.C24_inner_parameter_never_found_refuted",
    "Fly.Route.C24_bytes_behind_path_refuted"
   ],
   "note": "Exact for routes without parameters; with parameters in the last segment the first fitting path wins but the method is ignored; a parameter before the last segment is never found (code defects, proved in general)."
  },
  {
   "property": "C25",
   "status": "partial",
   "theorems": [
    "Fly.Route.C25_last_parameter_partial",
    "Fly.Route.C25_names_and_types_partial",
    "Fly.Route.C25_blanks_partial",
    "Fly.Route.C25_values",
    "Fly.Route.C25_bool_is_float_refuted",
    "Fly.Route.C25_only_first_parameter_refuted",
    "Fly.Route.C25_type_suffix_accepted_refuted"
   ],
   "note": "A single parameter in the last segment gets exactly that segment, with the written name and type, also with blanks inside the braces; once a route is chosen, every parameter that is a whole segment gets the text at its place; bool is registered as float, only the first of several parameters of the last segment is bound and trailing text is ignored (code defects)."
  },
  {
   "property": "C26",
   "status": "partial",
   "theorems": [
    "Fly.Req.C26_method_and_version_exact_partial",
    "Fly.Req.C26_alpn_recognised_is_prefix",
    "Fly.Req.C26_http2_method_prefix_refuted",
    "Fly.Req.C26_alpn_prefix_refuted"
   ],
   "note": "HTTP/1 in full; HTTP/2 :method and ALPN names are matched by prefix."
  },
  {
   "property": "C27",
   "status": "partial",
   "theorems": [
    "Fly.Encode.C27_choice_partial",
    "Fly.Encode.C27_asterisk_selects_refused_refuted",
    "Fly.Encode.C27_weight_carried_over_refuted",
    "Fly.Encode.C27_small_quality_refused_refuted",
    "Fly.Encode.C27_refused_precoded_sent_refuted",
    "Fly.Encode.C27_no_field"
   ],
   "note": "Proved for every well formed field with weights last, from the field's text to the choice; the code takes qualities below 0.01 for zero, picks gzip for * even if refused, carries weights over, sends 406 without regard to identity and sends precoded content whatever its quality (all proved)."
  },
  {
   "property": "C28",
   "status": "partial",
   "theorems": [
    "Fly.Encode.C28_not_dominated_partial",
    "Fly.Encode.C28_agreeing_partial",
    "Fly.Encode.C28_gzip_first_wins_refuted"
   ],
   "note": "The server's priority must be higher too for a later coding to win; so gzip listed first always wins (code defect)."
  },
  {
   "property": "C29",
   "status": "partial",
   "theorems": [
    "Fly.Mime.C29_understood_partial",
    "Fly.Mime.C29_absent",
    "Fly.Mime.C29_quality_one_refuted",
    "Fly.Mime.C29_quality_zero_refuted",
    "Fly.Mime.C29_blank_refuted",
    "Fly.Mime.C29_parameter_swallows_refuted",
    "Fly.Mime.C29_parameter_comma_blank_refuted",
    "Fly.Mime.C29_quoted_value_lost_refuted",
    "Fly.Mime.C29_quoted_comma_refuted",
    "Fly.Mime.C29_small_weight_refuted"
   ],
   "note": "Every field with weights 0.d to 0.ddd is understood from text to result; weights 1, 1.0, 0 and 0. are answered with 400, blanks behind a range too, a parameter without weight swallows the next range, weights below 0.01 count as 0 (code defects, proved for all such fields)."
  },
  {
   "property": "C30",
   "status": "partial",
   "theorems": [
    "Fly.Lang.C30_reads_inside",
    "Fly.Lang.C30_at_most_one_byte",
    "Fly.Lang.C30_short_names_partial",
    "Fly.Lang.C30_long_name_refuted"
   ],
   "note": "No field reads outside; names shorter than the field never write outside; every longer name writes one zero byte behind it (code defect, proved for all such names)."
  },
  {
   "property": "C31",
   "status": "partial",
   "theorems": [
    "Fly.Mount.C31_only_wanted",
    "Fly.Mount.C31_exact_partial",
    "Fly.Mount.C31_directory_refuted",
    "Fly.Mount.C31_equal_names_refuted",
    "Fly.Mount.C31_third_file_lost_refuted"
   ],
   "note": "The claim itself holds for every history (C31_only_wanted). The converse holds for regular files with distinct relative paths. A directory is answered with its own entry instead of the index below it; removing one of two files with equal relative paths, or both, makes mounted files disappear (code defects)."
  },
  {
   "property": "C32",
   "status": "partial",
   "theorems": [
    "Fly.Mount.C32_lexicographic",
    "Fly.Mount.C32_total_order",
    "Fly.Mount.C32_watched_name_refuted"
   ],
   "note": "Exact for all names compared with their own length; the master compares new files with the padded length of the kernel's event, so that a name differs from itself (code defect, for all names)."
  },
  {
   "property": "C33",
   "status": "partial",
   "theorems": [
    "Fly.Mount.C33_partial",
    "Fly.Mount.C33_exact",
    "Fly.Mount.C33_nested_refuted",
    "Fly.Mount.C33_sibling_refuted",
    "Fly.Mount.C33_subdirectory_refuted"
   ],
   "note": "Master side. Holds for top-level directories without subdirectories and without siblings whose name continues the directory's; siblings are removed too, and nested directories make the master loop for ever (code defects, proved in general)."
  },
  {
   "property": "C34",
   "status": "partial",
   "theorems": [
    "Fly.Cache.C34_http1_never_304_refuted",
    "Fly.Cache.C34_lower_case_refuted",
    "Fly.Cache.C34_if_none_match_partial",
    "Fly.Cache.C34_current_tag_304_partial",
    "Fly.Cache.C34_any_date_refuted",
    "Fly.Cache.C34_empty_value_refuted"
   ],
   "note": "304 is never answered: field names are stored in lower case (HTTP/1) or arrive so (HTTP/2) but are compared with capitals (code defect, proved for every request). Where a capitalised name reaches the comparison, tags are compared exactly, any readable date gives 304 and an empty value crashes."
  },
  {
   "property": "C35",
   "status": "partial",
   "theorems": [
    "Fly.Cache.C35_same_tag_iff",
    "Fly.Cache.C35_text",
    "Fly.Cache.C35_partial",
    "Fly.Cache.C35_collisions_refuted",
    "Fly.Cache.C35_source_partial",
    "Fly.Cache.C35_source_refuted"
   ],
   "note": "Equal digests get equal tags; the exact collisions are characterised: all bytes from 128 on are printed as ff (code defect). The hashed text is unambiguous for times from 2001 to 2286 only."
  },
  {
   "property": "C36",
   "status": "proved",
   "theorems": [
    "Fly.Event.C36_expired_are_marked"
   ],
   "note": "Every history of registrations, changes, extensions and removals over the red-black index of the code."
  },
  {
   "property": "C37",
   "status": "partial",
   "theorems": [
    "Fly.Event.C37_less_than_a_second_partial",
    "Fly.Event.C37_same_second_refuted",
    "Fly.Event.C37_extended_still_closed_refuted"
   ],
   "note": "Marked at most a second early; every timer due later in the same second is marked, and a timer extended after it was marked is closed anyway (code defects, proved for all histories)."
  },
  {
   "property": "C38",
   "status": "partial",
   "theorems": [
    "Fly.Event.C38_poll_timeout_partial",
    "Fly.Event.C38_far_deadline_spins_refuted"
   ],
   "note": "Exact to a millisecond for deadlines within 24 days; deadlines 25 to 49 days away make the loop spin (code defect)."
  },
  {
   "property": "C39",
   "status": "proved",
   "theorems": [
    "Fly.Event.C39_index_exact"
   ],
   "note": "Every legal history; the keys of the index are pointers and their deadlines are read from the events, as in the code."
  },
  {
   "property": "C40",
   "status": "partial",
   "theorems": [
    "Fly.Event.C40_add",
    "Fly.Event.C40_sub_partial",
    "Fly.Event.C40_cmp_partial",
    "Fly.Event.C40_after_2038_refuted",
    "Fly.Event.C40_msec"
   ],
   "note": "Addition for all times, subtraction and comparison up to 2038; from then on the casts to int break them (code defect)."
  },
  {
   "property": "C41",
   "status": "partial",
   "theorems": [
    "Fly.Conf.C41_partial",
    "Fly.Conf.C41_number",
    "Fly.Conf.C41_truth",
    "Fly.Conf.C41_unknown",
    "Fly.Conf.C41_malformed",
    "Fly.Conf.C41_no_equals",
    "Fly.Conf.C41_last_line_refuted",
    "Fly.Conf.C41_last_blank_refuted",
    "Fly.Conf.C41_long_line_refuted",
    "Fly.Conf.C41_long_comment_refuted",
    "Fly.Conf.C41_trailing_text_refuted",
    "Fly.Conf.C41_lax_number_refuted",
    "Fly.Conf.C41_exit_refuted",
    "Fly.Conf.C41_half_applied_refuted"
   ],
   "note": "Every file of correct lines below 1024 bytes ended by line feeds; unknown items and lines of a wrong shape are refused. A last line without line feed is refused or overruns the buffer, long lines overrun it, the rest of a long comment is read as a line, text after the value and junk after digits are accepted, a bad number ends the process with status 0, and a refused file is half applied (code defects, proved in general)."
  },
  {
   "property": "C42",
   "status": "proved",
   "theorems": [
    "Fly.Pool.C42_live",
    "Fly.Pool.C42_alloc",
    "Fly.Pool.C42_free",
    "Fly.Pool.C42_delete",
    "Fly.Pool.C42_index_released"
   ],
   "note": "Every history of allocations and arbitrary frees, with the list links and the red-black index of the code."
  },
  {
   "property": "C43",
   "status": "partial",
   "theorems": [
    "Fly.Master.C43_partial",
    "Fly.Master.C43_never_more_partial",
    "Fly.Master.C43_stopped_refuted",
    "Fly.Master.C43_two_ends_refuted",
    "Fly.Master.C43_early_end_refuted",
    "Fly.Master.C43_status_refuted"
   ],
   "note": "Every history of ends that are noticed one by one; without stopped workers the number never exceeds the configured one. A stopped worker is replaced and comes back (no bound on the number), the second of two ends before a read and an end before the signals are set up are never noticed, and an unknown exit status aborts the master (code defects, proved in general)."
  },
  {
   "property": "C44",
   "status": "proved",
   "theorems": [
    "Fly.PyRoute.C44_table",
    "Fly.PyRoute.C44_register",
    "Fly.PyRoute.C44_path_unique"
   ],
   "note": "Every history of registrations; a final newline of the path is dropped silently."
  },
  {
   "property": "C45",
   "status": "proved",
   "theorems": [
    "Fly.PyRoute.C45_defaults_never_override",
    "Fly.PyRoute.C45_plain_results"
   ],
   "note": "Every response, text, bytes or missing result; names compared on ASCII letters."
  },
  {
   "property": "C46",
   "status": "partial",
   "theorems": [
    "Fly.PyArgs.C46_partial",
    "Fly.PyArgs.C46_receiver",
    "Fly.PyArgs.C46_expire_refuted",
    "Fly.PyArgs.C46_injection_refuted"
   ],
   "note": "Every combination of attributes that are not zero or empty; a lifetime of 0 is never written, and a semicolon in a value adds attributes (code defects, proved in general)."
  },
  {
   "property": "C47",
   "status": "partial",
   "theorems": [
    "Fly.PyArgs.C47_partial",
    "Fly.PyArgs.C47_request",
    "Fly.PyArgs.C47_capital_refuted",
    "Fly.PyArgs.C47_shadow_refuted",
    "Fly.PyArgs.C47_valueless_refuted",
    "Fly.PyArgs.C47_kwargs_refuted"
   ],
   "note": "Every request and list of parameters with lower-case names that are no entries of the request; names with capitals, shadowed names, entries without value and **kwargs fail (code defects, proved in general). Parameters without annotation only."
  },
  {
   "property": "C48",
   "status": "partial",
   "theorems": [
    "Fly.PyArgs.C48_partial",
    "Fly.PyArgs.C48_equals_refuted",
    "Fly.PyArgs.C48_plus_refuted"
   ],
   "note": "Every list of Unicode names and values and every percent-encoding of them; a plain = in a value cuts it and + is not a space (code defects)."
  },
  {
   "property": "C49",
   "status": "partial",
   "theorems": [
    "Fly.PyRoute.C49_partial",
    "Fly.PyRoute.C49_second_method_refuted"
   ],
   "note": "Every path gets an OPTIONS route and its first route the headers; any further method of the path gets none (code defect, proved for every table)."
  },
  {
   "property": "C50",
   "status": "partial",
   "theorems": [
    "Fly.ReqEvent.C50_handler_body_exact",
    "Fly.ReqEvent.C50_limit_decides_partial",
    "Fly.ReqEvent.C50_expectation",
    "Fly.ReqEvent.C50_after_100_undefined_refuted",
    "Fly.ReqEvent.C50_no_answer_before_whole_body_refuted",
    "Fly.ReqEvent.C50_full_buffer"
   ],
   "note": "Bodies the application sees: every schedule. 413/417/100 for every well-formed request and schedule. The 413 comes only after the whole announced body (never for a negative length), and going on after 100 is undefined behaviour."
  },
  {
   "property": "C51",
   "status": "proved",
   "theorems": [
    "Fly.ReqEvent.C51_static_selection",
    "Fly.ReqEvent.C51_route_called"
   ],
   "note": "HTTP/1, every well-formed request and schedule."
  },
  {
   "property": "C52",
   "status": "partial",
   "theorems": [
    "Fly.Req.C52_path_accepted_iff",
    "Fly.Req.C52_classes",
    "Fly.Req.C52_token_class_refuted"
   ],
   "note": "Path, query and userinfo classes in full; the token class accepts delimiters."
  },
  {
   "property": "C53",
   "status": "proved",
   "theorems": [
    "Fly.Response.C53_digits_reserved_exact",
    "Fly.Response.C53_decimal_reads_back"
   ],
   "note": "All natural numbers."
  },
  {
   "property": "C54",
   "status": "partial",
   "theorems": [
    "Fly.Link.C54_lists",
    "Fly.Link.C54_queues",
    "Fly.Link.C54_pop_takes_last",
    "Fly.Link.C54_pop_empty_refuted",
    "Fly.Link.C54_remove_twice_refuted"
   ],
   "note": "All legal histories over any number of lists and queues. Popping takes the element pushed last; popping an empty queue makes the count -1 and removing an element twice corrupts other lists (code defects, outside the legal histories)."
  },
  {
   "property": "C55",
   "status": "partial",
   "theorems": [
    "Fly.Buffer.C55_preface_accepted_iff_partial",
    "Fly.Buffer.C55_split_preface_refused_refuted"
   ],
   "note": "Decision correct once 24 bytes are there; a preface split over two reads is refused (depends on recycled memory)."
  },
  {
   "property": "C56",
   "status": "partial",
   "theorems": [
    "Fly.H2.C56_peer_settings_partial",
    "Fly.H2.C56_small_header_list_size_refused_refuted",
    "Fly.H2.C56_zero_frame_size_accepted_refuted",
    "Fly.H2.C56_second_initial_window_wrong_refuted",
    "Fly.H2A.C56_acknowledged_partial"
   ],
   "note": "RFC behaviour for all lists of settings except the three refuted cases."
  },
  {
   "property": "C57",
   "status": "partial",
   "theorems": [
    "Fly.H2.C57_ping_reply_echoes_data_partial",
    "Fly.H2.C57_ping_reply_is_goaway_refuted"
   ],
   "note": "Opaque data echoed; frame type is GOAWAY without ACK for every PING (refuted)."
  },
  {
   "property": "C58",
   "status": "proved",
   "theorems": [
    "Fly.H2.C58_goaway_layout",
    "Fly.H2.C58_rst_layout"
   ],
   "note": ""
  },
  {
   "property": "C59",
   "status": "partial",
   "theorems": [
    "Fly.H2.C59_one_setting_payload_partial",
    "Fly.H2.C59_only_last_setting_sent_refuted"
   ],
   "note": "Right for one setting; for two or more only the last is written, at the front (refuted for every such list)."
  },
  {
   "property": "C60",
   "status": "partial",
   "theorems": [
    "Fly.Hpack.C60_header_block_partial",
    "Fly.Hpack.C60_static_16_wrong_refuted",
    "Fly.Hpack.C60_static_41_wrong_refuted",
    "Fly.Hpack.C60_never_indexed_name_misparsed_refuted",
    "Fly.Hpack.C60_bad_index_accepted_refuted",
    "Fly.Hpack.C60_size_update_refused_refuted",
    "Fly.Hpack.C60_literal_across_chunks_refuted"
   ],
   "note": "All blocks and table histories except the refuted cases."
  },
  {
   "property": "C61",
   "status": "partial",
   "theorems": [
    "Fly.Hpack.C61_response_headers_partial",
    "Fly.Hpack.C61_prefix_name_changed_refuted",
    "Fly.Hpack.C61_prefix_value_changed_refuted",
    "Fly.Hpack.C61_wrong_table_consulted_refuted"
   ],
   "note": "All header lists with short strings and no proper-prefix collision with the static table, while the client inserted nothing."
  },
  {
   "property": "C62",
   "status": "partial",
   "theorems": [
    "Fly.H2S.C62_nothing_after_goaway",
    "Fly.H2S.C62_late_window_update_ends_connection_refuted"
   ],
   "note": "All histories; but a legal late WINDOW_UPDATE ends the connection."
  },
  {
   "property": "C63",
   "status": "partial",
   "theorems": [
    "Fly.H2S.C63_answers_only_complete_requests",
    "Fly.H2S.C63_complete_request_answered_partial",
    "Fly.H2S.C63_answered_twice_refuted",
    "Fly.H2S.C63_continuation_never_answered_refuted",
    "Fly.H2S.C63_data_on_stream_zero_crashes_refuted"
   ],
   "note": "Only complete requests on all histories; answered at once if in one HEADERS frame; CONTINUATION is never served, a late DATA frame answers twice, DATA on stream 0 is undefined behaviour."
  },
  {
   "property": "C64",
   "status": "partial",
   "theorems": [
    "Fly.H2S.C64_body_is_data_sent_partial",
    "Fly.H2S.C64_padding_enters_body_refuted",
    "Fly.H2S.C64_body_without_length_refuted",
    "Fly.H2S.C64_short_body_uninitialised_refuted"
   ],
   "note": "All histories without padding."
  },
  {
   "property": "C65",
   "status": "partial",
   "theorems": [
    "Fly.H2S.C65_credit_returned_partial",
    "Fly.H2S.C65_padding_not_credited_refuted",
    "Fly.H2S.C65_zero_increment_errors_swapped_refuted"
   ],
   "note": "All histories without padding."
  },
  {
   "property": "C66",
   "status": "partial",
   "theorems": [
    "Fly.Send.C66_header_block_framing",
    "Fly.Send.C66_long_field_refuted",
    "Fly.Send.C66_block_over_1000_bytes_lost_refuted"
   ],
   "note": "Splitting proved for every field list over an unlimited buffer; the code's buffer holds 1000 bytes."
  },
  {
   "property": "C67",
   "status": "partial",
   "theorems": [
    "Fly.Header.C67_connection_decided_by_response_header",
    "Fly.Header.C67_request_close_ignored_refuted"
   ],
   "note": "Response side for all header lists; the request's header is ignored."
  },
  {
   "property": "C68",
   "status": "partial",
   "theorems": [
    "Fly.Req.C68_http2_path_split_partial",
    "Fly.Req.C68_http2_asterisk_only_options",
    "Fly.Req.C68_http2_percent_refused_refuted",
    "Fly.Req.C68_http2_empty_query_refuted"
   ],
   "note": "All paths and queries without percent-encoding; with it, every request is refused."
  },
  {
   "property": "C69",
   "status": "partial",
   "theorems": [
    "Fly.ReqHeader.C69_header_fields_exact",
    "Fly.ReqHeader.C69_rfc_fields_delivered_partial",
    "Fly.ReqHeader.C69_no_blank_after_colon_refuted",
    "Fly.ReqHeader.C69_obs_text_dropped_refuted",
    "Fly.ReqHeader.C69_trailing_blank_kept_refuted",
    "Fly.ReqHeader.C69_bare_lf_eats_body_byte_refuted",
    "Fly.ReqHeader.C69_nul_never_answered_refuted",
    "Fly.ReqHeader.C69_name_across_chunks_refuted"
   ],
   "note": "Exact result for every NUL-free header block; fields without a blank behind the colon or with obs-text are dropped, trailing blanks are kept, a name over two buffer blocks is cut."
  },
  {
   "property": "C70",
   "status": "partial",
   "theorems": [
    "Fly.ReqHeader.C70_malformed_lines_ignored_refuted",
    "Fly.ReqHeader.C70_outcome_independent_of_body_partial"
   ],
   "note": "The header is read the same whatever follows it; malformed lines are ignored instead of refused."
  },
  {
   "property": "C71",
   "status": "partial",
   "theorems": [
    "Fly.ReqEvent.C71_arrival_independent_partial",
    "Fly.ReqEvent.C71_crash_only_partial",
    "Fly.ReqEvent.C71_http2_version_crashes_refuted",
    "Fly.ReqEvent.C71_headerless_in_two_pieces_refuted",
    "Fly.ReqEvent.C71_half_close_unanswered_refuted"
   ],
   "note": "Every HTTP/1.1 request with a header field; requests without one, and clients that half-close, are refuted. Misbehaviour exactly for lines of 8000 bytes and version HTTP/2."
  },
  {
   "property": "C72",
   "status": "partial",
   "theorems": [
    "Fly.Route.C72_allow_text",
    "Fly.Route.C72_allow_complete",
    "Fly.Route.C72_allow_sound_partial",
    "Fly.Route.C72_allow_prefix_refuted",
    "Fly.Route.C72_allow_get_and_parameters_refuted"
   ],
   "note": "Every method of the path is listed; methods of shorter paths and GET are listed as well and those of routes with parameters are not (code defects)."
  },
  {
   "property": "C73",
   "status": "partial",
   "theorems": [
    "Fly.Encode.C73_reads_stay_inside",
    "Fly.Encode.C73_wellformed_parsed_partial",
    "Fly.Encode.C73_name_overflow_refuted",
    "Fly.Encode.C73_quality_overflow_refuted",
    "Fly.Encode.C73_blank_before_comma_rejected_refuted"
   ],
   "note": "Reads are proved safe for all values and well formed values are parsed; names of 20 characters and qualities with many zeros overflow stack buffers (code defects)."
  },
  {
   "property": "C74",
   "status": "partial",
   "theorems": [
    "Fly.Lang.C74_understood_partial",
    "Fly.Lang.C74_absent",
    "Fly.Lang.C74_many_decimals_refused",
    "Fly.Lang.C74_blank_before_comma_refuted",
    "Fly.Lang.C74_charset_tab_refuted"
   ],
   "note": "Every well-formed field without blanks in front of commas, names shorter than the name field; blanks in front of a comma and tabs in Accept-Charset are answered with 400 (code defects). Qualities are exact decimals, the code stores the nearest float."
  },
  {
   "property": "C75",
   "status": "partial",
   "theorems": [
    "Fly.Mime.C75_safe_partial",
    "Fly.Mime.C75_reads_inside",
    "Fly.Mime.C75_extension_crashes_refuted",
    "Fly.Mime.C75_extension_behind_blank",
    "Fly.Mime.C75_long_subtype_overflows_refuted"
   ],
   "note": "Every value without quoted strings, extensions and 31 visible characters in a row is safe; an extension behind a weight crashes the server and long subtypes overflow (code defects, proved for all such fields)."
  },
  {
   "property": "C76",
   "status": "partial",
   "theorems": [
    "Fly.Event.C76_quiet_turn_fires_partial",
    "Fly.Event.C76_busy_loop_starves_refuted",
    "Fly.Event.C37_extended_still_closed_refuted"
   ],
   "note": "A turn without ready events closes every expired connection; as long as events are ready none is ever closed (code defect)."
  },
  {
   "property": "C77",
   "status": "partial",
   "theorems": [
    "Fly.Cache.C77_partial",
    "Fly.Cache.C77_old_file_refuted"
   ],
   "note": "Files with positive times; a time of 0 or before 1970 makes the tag and the mount fail (code defect)."
  },
  {
   "property": "C78",
   "status": "partial",
   "theorems": [
    "Fly.Scan.C78_partial",
    "Fly.Scan.C78_long_name_refuted",
    "Fly.Scan.C78_unreadable_directory_refused"
   ],
   "note": "Every tree whose names are below 255 bytes and whose directories can be opened, up to the answers of lookups; names of 255 bytes are left out (code defect), an unreadable directory makes the mount fail."
  },
  {
   "property": "C79",
   "status": "partial",
   "theorems": [
    "Fly.Scan.C79_partial",
    "Fly.Scan.C79_limit_refuted"
   ],
   "note": "The limit is only tested when a directory is entered: one directory of any size is mounted completely (code defect)."
  },
  {
   "property": "C80",
   "status": "partial",
   "theorems": [
    "Fly.Scan.C80_partial",
    "Fly.Scan.C80_exact",
    "Fly.Scan.C80_dangling_link_refuted",
    "Fly.Scan.C80_unreadable_file_refuted",
    "Fly.Scan.C80_replaced_directory_refuted",
    "Fly.Scan.C80_name_elsewhere_refuted",
    "Fly.Scan.C80_long_path_refuted"
   ],
   "note": "Holds when everything can be opened, paths are short, no other mount point shares a path and no directory became a file. A dangling link or unreadable file ends the server, files below a replaced directory stay, shared names and long paths are not registered (code defects)."
  },
  {
   "property": "C81",
   "status": "partial",
   "theorems": [
    "Fly.Scan.C81_partial",
    "Fly.Scan.C81_stale_refuted",
    "Fly.Scan.C81_same_second_refuted"
   ],
   "note": "Only untouched files are described correctly: a notice updates the tag alone, never length, date and descriptor (code defect, for every sequence of changes)."
  },
  {
   "property": "C82",
   "status": "partial",
   "theorems": [
    "Fly.Master.C82_partial",
    "Fly.Master.C82_save_refuted",
    "Fly.Master.C82_production_refuted",
    "Fly.Master.C82_masks"
   ],
   "note": "Renaming, removing and touching reload; writing the file aborts the master, and the mode is ignored (code defects)."
  },
  {
   "property": "C83",
   "status": "partial",
   "theorems": [
    "Fly.Master.C83_partial",
    "Fly.Master.C83_stopped_refuted"
   ],
   "note": "Every history without stopped workers; a worker that was stopped and continued is forgotten (code defect)."
  },
  {
   "property": "C84",
   "status": "partial",
   "theorems": [
    "Fly.PyRoute.C84_partial",
    "Fly.PyRoute.C84_ascii_body",
    "Fly.PyRoute.C84_message_decodes",
    "Fly.PyRoute.C84_exit_refuted",
    "Fly.PyRoute.C84_type_refuted"
   ],
   "note": "All exceptions; SystemExit and unexpected result types in production make the handler wrapper itself raise (code defects)."
  },
  {
   "property": "C85",
   "status": "partial",
   "theorems": [
    "Fly.PyRoute.C85_partial",
    "Fly.PyRoute.C85_origin_refuted",
    "Fly.PyRoute.C85_debug_only_refuted"
   ],
   "note": "Preflight routes and the other headers survive; Access-Control-Allow-Origin never does, and a debug-only configuration leaves every second preflight route in place (code defects, proved for every table)."
  },
  {
   "property": "C86",
   "status": "proved",
   "theorems": [
    "Fly.PyRoute.C86_debug_routes_gone"
   ],
   "note": "Every history and CORS configuration."
  },
  {
   "property": "C87",
   "status": "partial",
   "theorems": [
    "Fly.PyRoute.C87_partial",
    "Fly.PyRoute.C87_switch_refuted"
   ],
   "note": "Holds for applications created with debug=False; with the --production switch every traceback is sent (code defect, for every application)."
  },
  {
   "property": "C88",
   "status": "partial",
   "theorems": [
    "Fly.PyRoute.C88_partial",
    "Fly.PyRoute.C88_constructor_refuted"
   ],
   "note": "add_header works for every list; the constructor's argument is always dropped (code defect)."
  },
  {
   "property": "C89",
   "status": "partial",
   "theorems": [
    "Fly.PyArgs.C89_partial",
    "Fly.PyArgs.C89_equals_refuted"
   ],
   "note": "Every list of cookies without = in their values; no value with = is ever seen (code defect, proved for all headers)."
  },
  {
   "property": "C90",
   "status": "partial",
   "theorems": [
    "Fly.PyArgs.C90_partial",
    "Fly.PyArgs.C90_special_refuted",
    "Fly.PyArgs.C90_type_refuted"
   ],
   "note": "Every form without & and = in names and values; no value with them is ever seen, and content types are compared letter by letter (code defects, proved for all bodies)."
  },
  {
   "property": "C91",
   "status": "partial",
   "theorems": [
    "Fly.PyArgs.C91_partial",
    "Fly.PyArgs.C91_bool_refuted"
   ],
   "note": "Every int segment, of any size (exact grammar); every non-empty bool is True (code defect). float is a parameter of the model."
  },
  {
   "property": "C92",
   "status": "partial",
   "theorems": [
    "Fly.Cli.C92_partial",
    "Fly.Cli.C92_last_line_refuted",
    "Fly.Cli.C92_space_refuted"
   ],
   "note": "Every file of lines ended by a line feed and every correct option value; a file without final line feed swallows the first option, and a path is cut at a space (code defects, proved in general)."
  },
  {
   "property": "C93",
   "status": "partial",
   "theorems": [
    "Fly.Cli.C93_partial",
    "Fly.Cli.C93_refuted"
   ],
   "note": "Holds only when the same file is also named on the command line; otherwise it is never read (code defect, for every file and all options)."
  },
  {
   "property": "C94",
   "status": "partial",
   "theorems": [
    "Fly.PyBridge.C94_response_received_partial",
    "Fly.PyBridge.C94_plain_value_received_partial",
    "Fly.PyBridge.C94_http2_fields_partial",
    "Fly.PyBridge.C94_head_always_500_refuted",
    "Fly.PyBridge.C94_head_sends_bytes_refuted",
    "Fly.PyBridge.C94_constructor_header_dropped_refuted",
    "Fly.PyBridge.C94_unknown_content_type_undefined_refuted",
    "Fly.PyBridge.C94_unknown_status_refuted",
    "Fly.PyBridge.C94_empty_field_name_undefined_refuted",
    "Fly.PyBridge.C94_empty_json_refuted"
   ],
   "note": "Every known status, field list, table content type and body, with or without compression, over HTTP/1.1, parsed back from the bytes; the header list over HTTP/2. HEAD, constructor headers, other content types and statuses, empty names and empty JSON fail (code defects, proved in general)."
  },
  {
   "property": "C95",
   "status": "proved",
   "theorems": [
    "Fly.PyBridge.C95_failure_is_500",
    "Fly.PyBridge.C95_malformed_is_500",
    "Fly.PyBridge.C95_too_long_is_413",
    "Fly.PyBridge.C95_encoded_too_long_is_413",
    "Fly.PyBridge.C95_http2_failure"
   ],
   "note": "Every failure, every malformed response object and every body over the limit (before or after encoding), HTTP/1.1, on the wire; HTTP/2 up to the header list."
  },
  {
   "property": "C96",
   "status": "partial",
   "theorems": [
    "Fly.PyBridge.C96_default_content_never_sent_refuted"
   ],
   "note": "Never sent over HTTP/1.1 (code defect, for every content and configuration); HTTP/2 sends it but its frames are not modelled."
  },
  {
   "property": "C97",
   "status": "partial",
   "theorems": [
    "Fly.PyReq.C97_dictionary_partial",
    "Fly.PyReq.C97_ascii_request_seen",
    "Fly.PyReq.C97_bad_parameter_refused",
    "Fly.PyReq.C97_not_utf8_undefined_refuted"
   ],
   "note": "The dictionary is exactly the request for every request of UTF-8 texts, and for no other; all others but bad path parameters are undefined instead of refused (code defect, proved in general). Version, scheme, peer, Accept lists and multipart bodies are left out."
  },
  {
   "property": "C98",
   "status": "partial",
   "theorems": [
    "Fly.Multipart.C98_parts_received_partial",
    "Fly.Multipart.C98_blanks_partial",
    "Fly.Multipart.C98_empty_form_refuted",
    "Fly.Multipart.C98_nul_refuted",
    "Fly.Multipart.C98_field_name_refuted",
    "Fly.Multipart.C98_other_parameters_refuted",
    "Fly.Multipart.C98_no_blank_refuted",
    "Fly.Multipart.C98_within_line_refuted"
   ],
   "note": "Every boundary and every list of parts, with preamble and epilogue, in the usual writing or with any blanks around the colons of part header fields. Empty forms, contents beginning with NUL, other letters in field names, other or no blanks and parameters in the content type, and the boundary within a line fail (code defects, proved in general)."
  },
  {
   "property": "C99",
   "status": "partial",
   "theorems": [
    "Fly.Multipart.C99_no_overread_partial",
    "Fly.Multipart.C99_hyphen_at_end_refuted",
    "Fly.Multipart.C99_other_content_type_refuted",
    "Fly.Multipart.C99_truncated_refuted",
    "Fly.Multipart.C99_cut_behind_boundary_refuted",
    "Fly.Multipart.C99_cut_name_refuted"
   ],
   "note": "Safe for every multipart body without NUL that ends with a line break; other content types, a hyphen at the end and truncated parts read outside (code defects, proved in general)."
  },
  {
   "property": "C100",
   "status": "partial",
   "theorems": [
    "Fly.H2R.C100_request_understood_partial",
    "Fly.H2R.C100_discarded_is_413_partial",
    "Fly.H2R.C100_unknown_refused_partial",
    "Fly.H2R.C100_incomplete_refused_partial",
    "Fly.H2R.C100_https_seen_as_http_refuted",
    "Fly.H2R.C100_second_path_wins_refuted",
    "Fly.H2R.C100_second_method_wins_refuted",
    "Fly.H2R.C100_missing_scheme_accepted_refuted"
   ],
   "note": "Every well-formed request without percent-encoding whose fields say in an understood form what is accepted, do not refuse everything, and describe no content type or coding; every request with an unknown pseudo field, method or scheme, or without method or path, is refused. The scheme is always http, and doubled, misplaced, extended and missing pseudo fields are accepted (code defects, proved in general)."
  },
  {
   "property": "C101",
   "status": "partial",
   "theorems": [
    "Fly.H2R.C101_always_answered_partial",
    "Fly.H2R.C101_statuses",
    "Fly.H2R.C101_empty_scheme_refuted",
    "Fly.H2R.C101_empty_accept_language_refuted",
    "Fly.H2R.C101_form_without_body_refuted",
    "Fly.H2R.C101_coding_without_body_refuted",
    "Fly.H2R.C101_nameless_field_refuted"
   ],
   "note": "Every list of named fields, however malformed, with understandable Accept fields (or none) and no content type or coding; empty scheme or language, announced bodies that do not come and nameless fields follow null pointers (code defects, proved in general)."
  },
  {
   "property": "C102",
   "status": "partial",
   "theorems": [
    "Fly.H2R.C102_plain_body_delivered_partial",
    "Fly.H2R.C102_encoded_body_lost_refuted",
    "Fly.H2R.C102_codings_refuted",
    "Fly.H2R.C102_http1_coding_ignored_refuted"
   ],
   "note": "Only bodies without coding are delivered. Over HTTP/2 no byte of an encoded body reaches the application, for every coding; over HTTP/1 the field is never found (code defects, proved in general)."
  },
  {
   "property": "C103",
   "status": "partial",
   "theorems": [
    "Fly.H2R.C103_same_answer_partial",
    "Fly.H2R.C103_directory_refuted"
   ],
   "note": "Every request without percent-encoding, content type or coding that does not refuse every form of response, for which the file search agrees; directories differ (code defect)."
  },
  {
   "property": "C104",
   "status": "partial",
   "theorems": [
    "Fly.H2B.C104_handler_body_partial",
    "Fly.H2B.C104_file_partial",
    "Fly.H2B.C104_no_content_partial",
    "Fly.H2B.C104_file_over_tls_overruns_refuted",
    "Fly.H2B.C104_any_larger_file_overruns_refuted",
    "Fly.H2B.C104_truncated_file_spins_refuted",
    "Fly.H2B.C104_grown_file_breaks_framing_refuted",
    "Fly.H2B.C104_default_content_spins_refuted",
    "Fly.H2B.C104_default_content_cut_refuted",
    "Fly.H2B.C104_frame_length_refuted",
    "Fly.H2B.C104_identity_file_undefined_refuted"
   ],
   "note": "Every application body and every encoding; unchanged files without TLS, or up to 4096 bytes with TLS. Larger files over TLS overrun a stack buffer, changed files spin or break the framing, default contents spin or are cut, an unaccepted stored encoding is sent in a frame of another length, identity follows a null pointer (code defects, proved in general)."
  },
  {
   "property": "C105",
   "status": "partial",
   "theorems": [
    "Fly.H2B.C105_body_survives_partial",
    "Fly.H2B.C105_encoded_survives_partial",
    "Fly.H2B.C105_client_ends_worker_refuted",
    "Fly.H2B.C105_signal_undefined_refuted"
   ],
   "note": "Bodies on both kinds of connection, encodings over TLS. While a file is sent without TLS a closed connection ends the worker at every point of the transfer; a signal while an encoding is sent leads before the buffer (code defects, proved in general)."
  },
  {
   "property": "C106",
   "status": "partial",
   "theorems": [
    "Fly.Log.C106_one_line_partial",
    "Fly.Log.C106_log_read_back_partial",
    "Fly.Log.C106_request_line_shown",
    "Fly.Log.C106_h2_request_line_partial",
    "Fly.Log.C106_written_partial",
    "Fly.Log.C106_long_entry_refuted",
    "Fly.Log.C106_h2_query_cut_refuted",
    "Fly.Log.C106_h2_forged_entry_refuted",
    "Fly.Log.C106_partial_write_refuted"
   ],
   "note": "Every HTTP/1 entry below 297 bytes, HTTP/2 requests without query. Longer entries join the next line, HTTP/2 queries are cut, clients can write lines of their own into the log by refused HTTP/2 targets, and an entry written in two pieces loses its end (code defects, proved in general)."
  },
  {
   "property": "C107",
   "status": "partial",
   "theorems": [
    "Fly.Log.C107_entries_whole_partial",
    "Fly.Log.C107_no_deadlock_partial",
    "Fly.Log.C107_every_call_counts",
    "Fly.Log.C107_old_log_overwritten_refuted",
    "Fly.Log.C107_old_log_lost",
    "Fly.Log.C107_waits_for_ever_refuted"
   ],
   "note": "All schedules, crash points and numbers of processes for entries of log.c. Messages of err.c overwrite the beginning of an old log after a restart and leave a lock behind that makes another process wait for ever (code defects, proved in general)."
  },
  {
   "property": "C108",
   "status": "partial",
   "theorems": [
    "Fly.Log.C108_text_partial",
    "Fly.Log.C108_error_value_refuted",
    "Fly.Log.C108_utc_and_offset_partial",
    "Fly.Log.C108_monotone_partial",
    "Fly.Log.C108_minutes_refuted",
    "Fly.Log.C108_summer_time_refuted",
    "Fly.Log.C108_not_local_time_refuted"
   ],
   "note": "Zones of whole hours without summer time. Minutes of other zones and all times during summer time are wrong (code defects, proved in general)."
  },
  {
   "property": "C109",
   "status": "partial",
   "theorems": [
    "Fly.Log.C109_path_partial",
    "Fly.Log.C109_long_path_refused",
    "Fly.Log.C109_destinations_partial",
    "Fly.Log.C109_error_destinations_partial",
    "Fly.Log.C109_entry_without_file",
    "Fly.Log.C109_unterminated_path_refuted",
    "Fly.Log.C109_stderr_refuted",
    "Fly.Log.C109_error_lost_refuted"
   ],
   "note": "Files and standard output. Standard error gets no entry, a path of exactly 4096 bytes is not terminated, fatal errors are lost without a log directory (code defects, proved in general)."
  },
  {
   "property": "C110",
   "status": "partial",
   "theorems": [
    "Fly.Log.C110_error_recorded_partial",
    "Fly.Log.C110_emergency_partial",
    "Fly.Log.C110_emergency_line_cut_refuted",
    "Fly.Log.C110_formatted_emergency_refuted"
   ],
   "note": "Every error that ends a worker. Emergencies raised with a format are undefined, others are cut to 199 bytes (code defects, proved in general)."
  },
  {
   "property": "C111",
   "status": "partial",
   "theorems": [
    "Fly.Conn.C111_negotiation_partial",
    "Fly.Conn.C111_protocol",
    "Fly.Conn.C111_name_of_255_hangs_refuted",
    "Fly.Conn.C111_long_name_overread_refuted"
   ],
   "note": "Every list of names of at most 127 bytes; every first byte and every schedule of the handshake. A name of 255 bytes before h2 makes the worker loop for ever, names of 128 to 254 bytes make it read before the list (code defects, proved in general)."
  },
  {
   "property": "C112",
   "status": "partial",
   "theorems": [
    "Fly.Conn.C112_connection_partial",
    "Fly.Conn.C112_left_partial",
    "Fly.Conn.C112_any_number_of_requests",
    "Fly.Conn.C112_handshake_broken_off_refuted",
    "Fly.Conn.C112_reset_before_request_refuted",
    "Fly.Conn.C112_reset_in_request_refuted",
    "Fly.Conn.C112_interim_response_refuted",
    "Fly.Conn.C112_accept_error_refuted"
   ],
   "note": "Every history without resets before or in a plain request, failing accept, 100 responses, or a handshake broken off: these end the worker or leave a socket with a freed event (code defects, proved in general). Memory of HTTP/2 streams is not followed here."
  },
  {
   "property": "C113",
   "status": "partial",
   "theorems": [
    "Fly.Conn.C113_timeout_partial",
    "Fly.Conn.C113_silent_client_refuted",
    "Fly.Conn.C113_stalled_handshake_refuted"
   ],
   "note": "Clients that have begun to speak HTTP. Clients silent from the start, or in the handshake, make the worker follow a null pointer when their time is over (code defect, proved for every such history)."
  },
  {
   "property": "C114",
   "status": "partial",
   "theorems": [
    "Fly.Conn.C114_no_leak_partial",
    "Fly.Conn.C114_bad_line_leaks_refuted"
   ],
   "note": "Every history without malformed request lines, each of which loses one request (code defect, proved in general)."
  },
  {
   "property": "C115",
   "status": "partial",
   "theorems": [
    "Fly.Keep.C115_answers_in_order_partial",
    "Fly.Keep.C115_pipelined_lost_refuted",
    "Fly.Keep.C115_body_taken_for_request_refuted"
   ],
   "note": "Every number of requests within the limits, or with refused fields and no content, each sent after the previous answer. Pipelined requests are thrown away, and the body of a request refused for its header is taken for the next request and carried out (code defects, proved in general)."
  },
  {
   "property": "C116",
   "status": "partial",
   "theorems": [
    "Fly.Keep.C116_application_closes",
    "Fly.Keep.C116_client_close_ignored_refuted"
   ],
   "note": "The application's wish is honoured, the client's never (code defect, proved for every request within the limits)."
  },
  {
   "property": "C117",
   "status": "partial",
   "theorems": [
    "Fly.PyForm.C117_annotated_partial",
    "Fly.PyForm.C117_called",
    "Fly.PyForm.C117_taken_refuted",
    "Fly.PyForm.C117_capital_refuted"
   ],
   "note": "All requests and parameter lists. Parameters after an un-annotated parameter with the name of the request's entry, and names with capitals, are None in every call (code defects, proved in general)."
  },
  {
   "property": "C118",
   "status": "partial",
   "theorems": [
    "Fly.PyForm.C118_form_received_partial",
    "Fly.PyForm.C118_repeated_refuted",
    "Fly.PyForm.C118_unquoted_refuted",
    "Fly.PyForm.C118_writing_refuted",
    "Fly.PyForm.C118_order_refuted"
   ],
   "note": "From the bytes of the body to the fields, for different names without quotes. Repeated names keep only the last field; other legal writings of the disposition make the whole form a 400 (code defects, proved in general)."
  },
  {
   "property": "C119",
   "status": "partial",
   "theorems": [
    "Fly.PyForm.C119_content_type",
    "Fly.PyForm.C119_refused_partial",
    "Fly.PyForm.C119_server_error_refuted",
    "Fly.PyForm.C119_raw_multipart_refuted",
    "Fly.PyForm.C119_null_refuted"
   ],
   "note": "Missing and unsupported types, missing bodies, unreadable dispositions and invalid fields. Malformed JSON, bytes that are no UTF-8 and multipart bodies whose parts are not found are 500; null calls the handler (code defects, proved in general)."
  },
  {
   "property": "C120",
   "status": "proved",
   "theorems": [
    "Fly.Codec.C120_gzip_complete",
    "Fly.Codec.C120_gzip_always"
   ],
   "note": "For every library that keeps the promises of `ZlibOk` (Spec), an instance of which is given."
  },
  {
   "property": "C121",
   "status": "partial",
   "theorems": [
    "Fly.Codec.C121_deflate_body_partial",
    "Fly.Codec.C121_deflate_body_crash_refuted",
    "Fly.Codec.C121_deflate_files_refuted",
    "Fly.Codec.C121_deflate_small_file_413_refuted"
   ],
   "note": "Handler bodies whose encoding has at most 4096 bytes. Longer ones crash the process, and no file is ever sent correctly: small ones are answered 413, large ones get a Content-Length beyond the content (code defects, proved in general)."
  },
  {
   "property": "C122",
   "status": "partial",
   "theorems": [
    "Fly.Codec.C122_br_body_partial",
    "Fly.Codec.C122_br_body_cut_refuted",
    "Fly.Codec.C122_br_file_cut_refuted"
   ],
   "note": "Handler bodies whose encoding has at most 4096 bytes. Longer encodings, also of files, are cut after 4096 bytes and sent as complete (code defect, proved in general)."
  },
  {
   "property": "C123",
   "status": "proved",
   "theorems": [
    "Fly.Codec.C123_preencode_gzip"
   ],
   "note": "For gzip, the coding used for files found by the scan."
  },
  {
   "property": "C124",
   "status": "partial",
   "theorems": [
    "Fly.H2L.C124_request_answered_partial",
    "Fly.H2L.C124_get_answered_partial",
    "Fly.H2L.C124_frames_behind_a_request_refuted"
   ],
   "note": "A request that arrives on an idle connection, in every schedule. Frames received behind a request wait until more bytes come (code defect, proved for every schedule)."
  },
  {
   "property": "C125",
   "status": "partial",
   "theorems": [
    "Fly.H2L.C125_answers_once_in_order_partial",
    "Fly.H2L.C125_client_without_requests_refuted"
   ],
   "note": "Order and completeness of sent plus queued frames. What is queued is not sent until a request or body makes the server write (code defect, proved for every schedule)."
  },
  {
   "property": "C126",
   "status": "partial",
   "theorems": [
    "Fly.H2L.C126_cancelled_request_blocks_refuted",
    "Fly.H2L.C126_cancelled_empty_response_aborts_refuted"
   ],
   "note": "Refuted: the responses behind a cancelled one are never sent (every schedule); a cancelled response without content aborts the worker."
  },
  {
   "property": "C127",
   "status": "partial",
   "theorems": [
    "Fly.H2L.C127_closed_window_blocks_refuted",
    "Fly.H2L.C127_closed_window_spins_refuted"
   ],
   "note": "Refuted: head-of-line blocking and a busy loop, for every schedule."
  },
  {
   "property": "C128",
   "status": "partial",
   "theorems": [
    "Fly.H2L.C128_goaway_never_sent_refuted"
   ],
   "note": "Refuted: no GOAWAY is ever sent, on any history, unless the worker ends."
  },
  {
   "property": "C129",
   "status": "partial",
   "theorems": [
    "Fly.H2L.C129_failing_frame_ends_worker_refuted",
    "Fly.H2L.C129_push_promise_ends_worker_refuted"
   ],
   "note": "Refuted from every idle connection."
  },
  {
   "property": "C130",
   "status": "partial",
   "theorems": [
    "Fly.H2L.C130_only_arrived_bytes_partial",
    "Fly.H2L.C130_long_frame_refuted"
   ],
   "note": "Frames within the limit, all schedules. Longer frames are handled when only their header has arrived (code defect, proved from every idle connection)."
  },
  {
   "property": "C131",
   "status": "partial",
   "theorems": [
    "Fly.H2P.C131_priorities_recorded_partial",
    "Fly.H2P.C131_unknown_dependency_crashes_refuted",
    "Fly.H2P.C131_heavier_stream_loops_refuted",
    "Fly.H2P.C131_closed_stream_used_refuted"
   ],
   "note": "Different streams depending on the root in falling order of weight, any number. Unknown dependencies crash, a heavier third stream makes the next frame loop for ever, and closed streams are used after free (code defects, proved in general)."
  },
  {
   "property": "C132",
   "status": "partial",
   "theorems": [
    "Fly.H2P.C132_weight_recorded_partial",
    "Fly.H2P.C132_largest_weight_refuted"
   ],
   "note": "All weights but 256, which is recorded as 0 (code defect)."
  },
  {
   "property": "C133",
   "status": "partial",
   "theorems": [
    "Fly.H2P.C133_first_dependent_partial",
    "Fly.H2P.C133_second_dependent_refuted",
    "Fly.H2P.C133_exclusive_adopts_nobody_refuted"
   ],
   "note": "The first dependent of a stream without siblings before it. Dependents of a second dependent go to the wrong list, exclusive dependencies take over nobody (code defects, proved in general)."
  },
  {
   "property": "C134",
   "status": "proved",
   "theorems": [
    "Fly.Start.C134_one_owner",
    "Fly.Start.C134_one_server"
   ],
   "note": "All histories and interleavings."
  },
  {
   "property": "C135",
   "status": "partial",
   "theorems": [
    "Fly.Start.C135_names_server_partial",
    "Fly.Start.C135_daemon_refuted",
    "Fly.Start.C135_short_write_refuted"
   ],
   "note": "Servers that are no daemons, when writes take the whole number. The file of a daemon names the process that was started and has ended; a short write goes unnoticed (code defects, proved for every history)."
  },
  {
   "property": "C136",
   "status": "partial",
   "theorems": [
    "Fly.Start.C136_start_partial",
    "Fly.Start.C136_no_restart_refuted",
    "Fly.Start.C136_failed_start_refuted",
    "Fly.Start.C136_reload_ends_server_refuted"
   ],
   "note": "A start without pid file. Nothing removes the file (the routine has no caller), so nothing can be started again, and a reload ends the server (code defects, proved for every history)."
  },
  {
   "property": "C137",
   "status": "proved",
   "theorems": [
    "Fly.Start.C137_removes_own_only",
    "Fly.Start.C137_never_foreign"
   ],
   "note": "Every number and content; the routine has no caller (see C136)."
  },
  {
   "property": "C138",
   "status": "partial",
   "theorems": [
    "Fly.Start.C138_descriptors_partial",
    "Fly.Start.C138_succeeds_partial",
    "Fly.Start.C138_low_descriptor_lost_refuted"
   ],
   "note": "All tables in which the kept descriptors are not standard streams and nothing is open above the limit. A kept descriptor 1 or 2 is lost (code defect, proved in general)."
  },
  {
   "property": "C139",
   "status": "partial",
   "theorems": [
    "Fly.Start.C139_first_fork_partial",
    "Fly.Start.C139_failure_serves_refuted",
    "Fly.Start.C139_second_fork_refuted"
   ],
   "note": "A failing first fork. Later failures are ignored or seen by nobody (code defects, proved for every combination)."
  },
  {
   "property": "C140",
   "status": "partial",
   "theorems": [
    "Fly.Start.C140_listening_partial",
    "Fly.Start.C140_leak_refuted",
    "Fly.Start.C140_no_reason_refuted"
   ],
   "note": "All address lists when sockets can be made non-blocking and reusable. Otherwise descriptors leak, and the reason is an uninitialised pointer (code defects, proved in general)."
  },
  {
   "property": "C141",
   "status": "partial",
   "theorems": [
    "Fly.Start.C141_whole_blocks_partial",
    "Fly.Start.C141_too_much_refuted",
    "Fly.Start.C141_endless_refuted",
    "Fly.Start.C141_repeats_refuted",
    "Fly.Start.C141_repeats_wrong_refuted",
    "Fly.Start.C141_null_offset_refuted"
   ],
   "note": "Whole blocks of 4096 bytes on a connection that takes everything. Any other count, short file, partial write or missing offset fails (code defects, proved in general)."
  },
  {
   "property": "C142",
   "status": "proved",
   "theorems": [
    "Fly.Watch.C142_growing_survives",
    "Fly.Watch.C142_growing_known",
    "Fly.Watch.C142_growing_catches_up",
    "Fly.Watch.C142_change_is_told"
   ],
   "note": "Every tree, history and interleaving; registering a new directory with its contents is one step of the model."
  },
  {
   "property": "C143",
   "status": "proved",
   "theorems": [
    "Fly.Watch.C143_calm_followed",
    "Fly.Watch.C143_calm_told"
   ],
   "note": "Every set of files and history in which the master catches up between changes; renaming inside the mount point is in C145."
  },
  {
   "property": "C144",
   "status": "partial",
   "theorems": [
    "Fly.Watch.C144_survives_partial",
    "Fly.Watch.C144_short_lived_file_refuted",
    "Fly.Watch.C144_written_then_removed_refuted"
   ],
   "note": "Growing trees with every schedule, and calm histories. A file that is gone before the master looks ends the server (code defect, proved for every mount point and history). Removal of directories is in Mount."
  },
  {
   "property": "C145",
   "status": "partial",
   "theorems": [
    "Fly.Watch.C145_noticed_partial",
    "Fly.Watch.C145_subdirectories_unnoticed_refuted",
    "Fly.Watch.C145_renamed_unnoticed_refuted"
   ],
   "note": "Changes of files of the mount point without renaming, and additions outside sub-directories of the start. Additions to those, and writes to renamed or replaced files, are never noticed (code defects, proved in general)."
  },
  {
   "property": "C146",
   "status": "proved",
   "theorems": [
    "Fly.Dispatch.C146_ready_are_handled_once",
    "Fly.Dispatch.C146_expired_are_handled_once"
   ],
   "note": "All handlers with the contract stated in Spec (flag FLY_CLOSE_EV exactly if closed; new descriptors are new; log entries neither fail nor register). Whether single handlers keep it is in Conn and H2Loop."
  },
  {
   "property": "C147",
   "status": "proved",
   "theorems": [
    "Fly.Dispatch.C147_failing_are_closed_once",
    "Fly.Dispatch.C147_expired_are_removed",
    "Fly.Dispatch.C147_removed_never_again"
   ],
   "note": "As C146."
  },
  {
   "property": "C148",
   "status": "proved",
   "theorems": [
    "Fly.Dispatch.C148_others_are_left_alone",
    "Fly.Dispatch.C148_watched_are_registered"
   ],
   "note": "As C146."
  },
  {
   "property": "C149",
   "status": "partial",
   "theorems": [
    "Fly.H2A.C149_unconfigured_partial",
    "Fly.H2A.C149_acknowledgement_overwrites_refuted",
    "Fly.H2A.C149_window_closed_refuted",
    "Fly.H2A.C149_stray_memory_refuted"
   ],
   "note": "Holds if no FLY_SETTINGS_ variable is set; otherwise false of the code: on the acknowledgement the server's own values, cut to 16 bits, and for two or more settings unwritten memory, replace the client's settings."
  },
  {
   "property": "C150",
   "status": "partial",
   "theorems": [
    "Fly.H2A.C150_calm_partial",
    "Fly.H2A.C150_second_ack_ignored",
    "Fly.H2A.C150_overtaking_refuted",
    "Fly.H2A.C150_overtaking_compliant_refuted"
   ],
   "note": "Holds if no acknowledgement arrives while a SETTINGS frame of the server waits; otherwise false of the code (use after free), also with a client that keeps to the protocol."
  },
  {
   "property": "C151",
   "status": "partial",
   "theorems": [
    "Fly.H2A.C151_given_back_partial",
    "Fly.H2A.C151_payloads_kept_refuted"
   ],
   "note": "Frames are given back after every calm history; payloads of configured settings never are."
  },
  {
   "property": "C152",
   "status": "proved",
   "theorems": [
    "Fly.FileType.C152_type_of_extension",
    "Fly.FileType.C152_no_extension",
    "Fly.FileType.C152_every_path"
   ],
   "note": "For every path."
  },
  {
   "property": "C153",
   "status": "partial",
   "theorems": [
    "Fly.Pages.C153_page_of_status_partial",
    "Fly.Pages.C153_page_411_ignored_refuted",
    "Fly.Pages.C153_long_directory_refuted"
   ],
   "note": "False of the code for 411, which is missing from the table, and for directories with paths over 4086 bytes (buffer overflow)."
  },
  {
   "property": "C154",
   "status": "partial",
   "theorems": [
    "Fly.Signals.C154_worker_partial",
    "Fly.Signals.C154_master_partial",
    "Fly.Signals.C154_exact_partial",
    "Fly.Signals.C154_child_ends_worker_refuted",
    "Fly.Signals.C154_mild_signals_end_refuted",
    "Fly.Signals.C154_change_kills_starting_refuted"
   ],
   "note": "Exactly which signals are survived. A program started by a route function ends the worker when it ends; SIGCONT, SIGTSTP, SIGURG end the server; a file that changes kills a worker that starts (code defects)."
  },
  {
   "property": "C155",
   "status": "proved",
   "theorems": [
    "Fly.Signals.C155_actions_kept"
   ],
   "note": "For every program."
  },
  {
   "property": "C156",
   "status": "partial",
   "theorems": [
    "Fly.Signals.C156_mask_partial",
    "Fly.Signals.C156_all_blocked_refuted",
    "Fly.Signals.C156_all_unblocked_refuted"
   ],
   "note": "False of the code: all signals are blocked afterwards (or unblocked, without sigsetjmp)."
  },
  {
   "property": "C157",
   "status": "proved",
   "theorems": [
    "Fly.Signals.C157_change_or_interrupt",
    "Fly.Signals.C157_before_first_start"
   ],
   "note": "With blocked signals (after a reload) and without (before the first run)."
  },
  {
   "property": "C158",
   "status": "partial",
   "theorems": [
    "Fly.Signals.C158_terminated_partial",
    "Fly.Signals.C158_cannot_be_terminated_refuted"
   ],
   "note": "Before the first run; after a reload it is false of the code for every signal but SIGINT and SIGKILL."
  },
  {
   "property": "C159",
   "status": "partial",
   "theorems": [
    "Fly.Signals.C159_old_workers_gone_partial",
    "Fly.Signals.C159_forgotten_worker_stays_refuted",
    "Fly.Signals.C159_busy_worker_blocks_refuted"
   ],
   "note": "Every history of ends, noticed or not, and every order; a stopped worker is forgotten and one that does not end blocks the reload for ever (code defects)."
  },
  {
   "property": "C160",
   "status": "partial",
   "theorems": [
    "Fly.Signals.C160_table_kept_partial",
    "Fly.Signals.C160_worker_replaced_refuted"
   ],
   "note": "Every history of the workers' own notices and of kill; false for sigqueue with a worker's process id."
  },
  {
   "property": "C161",
   "status": "proved",
   "theorems": [
    "Fly.Life.C161_loop_descriptors"
   ],
   "note": "For every initial state, system and history of changes and ends."
  },
  {
   "property": "C162",
   "status": "partial",
   "theorems": [
    "Fly.Life.C162_no_growth_partial",
    "Fly.Life.C162_grows_refuted",
    "Fly.Life.C162_exhausted_refuted"
   ],
   "note": "Holds without a configuration file and logs; refuted otherwise: the configuration file and the three logs are never closed, the exact number after n reloads is given, and the server ends once they reach the limit."
  },
  {
   "property": "C163",
   "status": "partial",
   "theorems": [
    "Fly.Life.C163_saved_actions_partial",
    "Fly.Life.C163_watched_paths_refuted"
   ],
   "note": "Holds for the list of signal actions; refuted for the list of watched paths, which is never empty."
  },
  {
   "property": "C164",
   "status": "partial",
   "theorems": [
    "Fly.Life.C164_reload_partial",
    "Fly.Life.C164_recursion_refuted"
   ],
   "note": "Holds while stack and descriptors suffice; refuted for more reloads than a third of Python's recursion limit."
  },
  {
   "property": "C165",
   "status": "partial",
   "theorems": [
    "Fly.Life.C165_corrected_partial",
    "Fly.Life.C165_broken_file_refuted",
    "Fly.Life.C165_never_again_refuted",
    "Fly.Life.C165_default_content_refuted"
   ],
   "note": "Holds for applications without routes and mount points; refuted for files that raise, for refused mount points (the port stays taken) and for a default content path."
  },
  {
   "property": "C166",
   "status": "partial",
   "theorems": [
    "Fly.Life.C166_configuration_partial",
    "Fly.Life.C166_production_refuted",
    "Fly.Life.C166_own_file_refuted",
    "Fly.Life.C166_own_file_ignored_refuted"
   ],
   "note": "Holds for options that go into the configuration; refuted for --production, --print_request and applications with config_path."
  },
  {
   "property": "C167",
   "status": "partial",
   "theorems": [
    "Fly.Life.C167_load_error_partial",
    "Fly.Life.C167_status_refuted",
    "Fly.Life.C167_failed_start_refuted"
   ],
   "note": "Holds for application files that cannot be loaded at first; refuted for all other failures: sys.exit(0) in finally."
  },
  {
   "property": "C168",
   "status": "proved",
   "theorems": [
    "Fly.Points.C168_every_directory_mounted",
    "Fly.Points.C168_nothing_else"
   ],
   "note": "Every environment and list of calls; the exact files for allowed names and paths that are not too long (others: C142 and Scan)."
  },
  {
   "property": "C169",
   "status": "partial",
   "theorems": [
    "Fly.Points.C169_starts_partial",
    "Fly.Points.C169_symbolic_link_refuted",
    "Fly.Points.C169_two_slashes_refuted"
   ],
   "note": "Holds for directories reached without symbolic links and without exactly two leading slashes; otherwise the server never starts (code defect)."
  },
  {
   "property": "C170",
   "status": "proved",
   "theorems": [
    "Fly.Points.C170_limit",
    "Fly.Points.C170_more_do_not_start"
   ],
   "note": "For non-negative limits."
  },
  {
   "property": "C171",
   "status": "partial",
   "theorems": [
    "Fly.Points.C171_files_dropped_partial",
    "Fly.Points.C171_master_refuted",
    "Fly.Points.C171_worker_refuted",
    "Fly.Points.C171_only_one_refuted",
    "Fly.Points.C171_one_of_several_refuted"
   ],
   "note": "A worker takes exactly the right files out of its index; then unmounting reads the freed path, or ends the process when it was the only mount point (code defects)."
  },
  {
   "property": "C172",
   "status": "partial",
   "theorems": [
    "Fly.Trip.C172_round_trips_partial",
    "Fly.Trip.C172_two_writes_refuted",
    "Fly.Trip.C172_head_refuted",
    "Fly.Trip.C172_inner_parameter_refuted"
   ],
   "note": "Composition of the request, routing, dictionary, response and sending models: holds for whole responses taken by the kernel at once, after any number of blocked calls. Refuted when a response takes two write calls, for HEAD, and for paths with a parameter before the last segment. Not covered: multipart contents and files."
  },
  {
   "property": "C173",
   "status": "partial",
   "theorems": [
    "Fly.Trip.C173_last_response_partial",
    "Fly.Trip.C173_two_writes_refuted"
   ],
   "note": "Holds, also for 413 responses, when the response is taken in one write call; refuted otherwise."
  },
  {
   "property": "C174",
   "status": "proved",
   "theorems": [
    "Fly.PyCors.C174_decorated_route",
    "Fly.PyCors.C174_other_routes"
   ],
   "note": "For every file that loads in debug mode; functions are arbitrary."
  },
  {
   "property": "C175",
   "status": "partial",
   "theorems": [
    "Fly.PyCors.C175_no_trace_partial",
    "Fly.PyCors.C175_preflight_partial",
    "Fly.PyCors.C175_origin_refuted",
    "Fly.PyCors.C175_production_refuted"
   ],
   "note": "With Fly(debug=False): debug-only decorators leave no trace and preflight answers are complete, but the responses lack Access-Control-Allow-Origin; with --production debug-only CORS stays on all routes but the first (code defects)."
  },
  {
   "property": "C176",
   "status": "partial",
   "theorems": [
    "Fly.PyCors.C176_loads_partial",
    "Fly.PyCors.C176_path_refuted",
    "Fly.PyCors.C176_second_method_refuted",
    "Fly.PyCors.C176_method_member_refuted",
    "Fly.PyCors.C176_debug_route_refuted"
   ],
   "note": "Holds for paths written as stored, the first route of a path, text methods; otherwise the application does not load (code defects)."
  },
  {
   "property": "C177",
   "status": "partial",
   "theorems": [
    "Fly.H2Trip.C177_h2_round_trips_partial",
    "Fly.H2Trip.C177_window_refuted",
    "Fly.H2Trip.C177_frame_size_refuted",
    "Fly.H2Trip.C177_coded_too_long_refuted",
    "Fly.H2Trip.C177_head_refuted",
    "Fly.H2Trip.C177_client_table_refuted",
    "Fly.H2Trip.C177_malformed_partial",
    "Fly.H2Trip.C177_discarded_partial"
   ],
   "note": "Composition of the HPACK, request, routing, dictionary, response, content and frame models, read by a client written after RFC 9113 and 7541. Holds for contents smaller than the windows and a frame. The client may index its header fields. Malformed requests get a 400 and discarded contents a 413. Refuted for contents as long as a window, longer than a frame, or too long when encoded, for HEAD, and for response fields that the client has entered in its own table. Clients that refuse everything: C195. Not covered: forms, content codings of requests; files: C194."
  },
  {
   "property": "C178",
   "status": "partial",
   "theorems": [
    "Fly.PyText.C178_texts_kept_partial",
    "Fly.PyText.C178_http1_texts_kept",
    "Fly.PyText.C178_same_but_capitals",
    "Fly.PyText.C178_text_changed_refuted",
    "Fly.PyText.C178_other_responses_refuted",
    "Fly.PyText.C178_value_changed_refuted"
   ],
   "note": "Holds for HTTP/1 and for names without capital letters, and always but for capital letters; an HTTP/2 response makes the names it contains lower case in the application's own str objects, for good (code defect)."
  },
  {
   "property": "C179",
   "status": "proved",
   "theorems": [
    "Fly.WStart.C179_starts"
   ],
   "note": "TLS certificates and memory are left out."
  },
  {
   "property": "C180",
   "status": "partial",
   "theorems": [
    "Fly.WStart.C180_others_partial",
    "Fly.WStart.C180_unreadable_refuted",
    "Fly.WStart.C180_request_refuted"
   ],
   "note": "Other files are served if the unreadable file is not one to be encoded in advance. Otherwise every worker exits and the master ends the server; and one GET of an unreadable small file ends the worker (code defects)."
  },
  {
   "property": "C181",
   "status": "partial",
   "theorems": [
    "Fly.WStart.C181_descriptors_partial",
    "Fly.WStart.C181_never_serves_refuted",
    "Fly.WStart.C181_deaf_refuted"
   ],
   "note": "Exact bounds for small files: with too few descriptors workers exit and are replaced without end; with one too few they serve but are deaf to SIGTERM (code defects)."
  },
  {
   "property": "C182",
   "status": "partial",
   "theorems": [
    "Fly.Session.C182_cookie_returns_partial",
    "Fly.Session.C182_remove_refuted",
    "Fly.Session.C182_equals_refuted",
    "Fly.Session.C182_names_refuted"
   ],
   "note": "Full for names and values without ; and = whose parameter names differ, one host and path, no Secure. Refuted (code defects) for max_age=0, for values with =, and for names differing only in capitals, - and _."
  },
  {
   "property": "C183",
   "status": "proved",
   "theorems": [
    "Fly.Date.C183_http_date",
    "Fly.Date.C183_date_field",
    "Fly.Date.C183_date_field_h2",
    "Fly.Date.C183_last_modified"
   ],
   "note": "For programs that do not set a locale (see C184). gmtime_r is any function with the POSIX contract; one is given and proved to meet it."
  },
  {
   "property": "C184",
   "status": "partial",
   "theorems": [
    "Fly.Date.C184_english_partial",
    "Fly.Date.C184_locale_refuted"
   ],
   "note": "Full for locales with English names; refuted for every other locale on every day or in every month with another name (strftime with %a and %b, code defect)."
  },
  {
   "property": "C185",
   "status": "partial",
   "theorems": [
    "Fly.Site.C185_site_round_trips_partial",
    "Fly.Site.C185_identity_refuted",
    "Fly.Site.C185_unaccepted_form_refuted"
   ],
   "note": "Extends C172 to mounted files. Refuted (code defects): a file for which identity was chosen is sent from a null pointer; a file kept in an encoded form goes encoded, unannounced and followed by server memory to clients that do not accept the coding. Changed files are C186; what C172 leaves out is left out here."
  },
  {
   "property": "C186",
   "status": "partial",
   "theorems": [
    "Fly.Site.C186_present_content_partial",
    "Fly.Site.C186_memory_sent_refuted",
    "Fly.Site.C186_cut_refuted",
    "Fly.Site.C186_old_form_refuted"
   ],
   "note": "Holds for contents of the length the file had when it was mounted, and for contents encoded on request. Refuted (code defects): shorter contents are filled up with server memory, longer ones are cut, files encoded in advance are never encoded again."
  },
  {
   "property": "C187",
   "status": "proved",
   "theorems": [
    "Fly.Site.C187_allow_omits_nothing"
   ],
   "note": ""
  },
  {
   "property": "C188",
   "status": "partial",
   "theorems": [
    "Fly.Site.C188_allow_lists_no_more_partial",
    "Fly.Site.C188_prefix_listed_refuted"
   ],
   "note": "Full when no path of a function is a proper beginning of the path; refuted whenever one is (strncmp with the length of the route, code defect)."
  },
  {
   "property": "C189",
   "status": "partial",
   "theorems": [
    "Fly.Serve.C189_serial_order_partial"
   ],
   "note": "Full for clients that wait for each response before the next request; leaves out HEAD, multipart contents, responses that close the connection and responses the kernel takes in several writes (C16, C94, C115, C173: code defects)."
  },
  {
   "property": "C190",
   "status": "partial",
   "theorems": [
    "Fly.Serve.C190_real_time_partial"
   ],
   "note": "As C189."
  },
  {
   "property": "C191",
   "status": "partial",
   "theorems": [
    "Fly.Serve.C191_answered_partial",
    "Fly.Serve.C191_stays_up_partial",
    "Fly.Serve.C191_one_stops_all_refuted",
    "Fly.Serve.C191_long_line_stops_all_refuted"
   ],
   "note": "As C189, as long as the worker runs; clients of this kind do not stop it. Refuted without that condition: in every state one request with Expect: 100-continue on a fresh connection ends the worker (code defect, C50), and so does one request line of 8000 bytes or more (code defect, C23)."
  },
  {
   "property": "C192",
   "status": "partial",
   "theorems": [
    "Fly.H2S.C192_error_codes_partial",
    "Fly.H2S.C192_header_block_partial",
    "Fly.H2S.C192_data_state_partial",
    "Fly.H2S.C192_oversized_code_refuted",
    "Fly.H2S.C192_ack_payload_refuted"
   ],
   "note": "Full for PRIORITY, RST_STREAM, SETTINGS, PING, GOAWAY, WINDOW_UPDATE within the announced size, header blocks of HEADERS and the stream state of DATA. Refuted: oversized frames get PROTOCOL_ERROR and are handled, acknowledgements with content are accepted, zero increments (C65), CONTINUATION (C63) (code defects)."
  },
  {
   "property": "C193",
   "status": "partial",
   "theorems": [
    "Fly.BodyLen.C193_expect",
    "Fly.BodyLen.C193_no_length",
    "Fly.BodyLen.C193_length_partial",
    "Fly.BodyLen.C193_two_lengths_refuted",
    "Fly.BodyLen.C193_trailing_text_refuted",
    "Fly.BodyLen.C193_negative_refuted"
   ],
   "note": "Expect is recognised exactly as it should be, and the first Content-Length gives the length; two different lengths, text after the digits and negative numbers are accepted (code defects). Lengths from 2^63 (atoll overflow) are left out."
  },
  {
   "property": "C194",
   "status": "partial",
   "theorems": [
    "Fly.H2Site.C194_h2_files_partial",
    "Fly.H2Site.C194_empty_file_refuted",
    "Fly.H2Site.C194_long_file_refuted",
    "Fly.H2Site.C194_stored_form_refuted"
   ],
   "note": "Full for files that have not changed since they were mounted and are sent encoded, or as they are with 1 to 4096 bytes. Refuted: an empty file never ends the stream, a longer one overruns a buffer on the stack, a stored form that the client does not accept breaks the framing (code defects). Left out as in C177: windows and frames that are too small. Negotiation: C195."
  },
  {
   "property": "C195",
   "status": "partial",
   "theorems": [
    "Fly.Nego.C195_negotiated_partial",
    "Fly.Nego.C195_http2_negotiated_partial",
    "Fly.Nego.C195_refused_form_sent_refuted",
    "Fly.Nego.C195_asterisk_refuted",
    "Fly.Nego.C195_identity_taken_refuted",
    "Fly.Nego.C195_media_not_compared_refuted",
    "Fly.Refuse.C195_quality_one_refuted"
   ],
   "note": "Full for understandable fields on both protocols, except: a file kept in a refused coding is sent in it, `*` chooses gzip even if it is refused, identity is refused although it was not named, the media type, character set and language of the response are not compared (code defects, proved in general). Left out: weights before elements without weight, qualities below 0.01 (C27), refused requests with content (C115)."
  },
  {
   "property": "C196",
   "status": "partial",
   "theorems": [
    "Fly.Refuse.C196_bad_fields_partial",
    "Fly.Refuse.C196_connection_ends"
   ],
   "note": "Full for lines that are no request lines and for too much content (without Expect, see C50). Wrong fields: a weight of more than three decimals for a character set or language; some other wrong fields are taken as right (C27, C29, C74), and refused requests with content leave it to be read as a request (C115)."
  },
  {
   "property": "C197",
   "status": "partial",
   "theorems": [
    "Fly.Access.C197_log_agrees_partial",
    "Fly.Access.C197_last_response_partial",
    "Fly.Access.C197_unwritten_not_logged",
    "Fly.Access.status_begins",
    "Fly.Log.C106_long_entry_refuted"
   ],
   "note": "Full for every connection of Refuse (C196) whose entries are shorter than 297 bytes; longer entries are cut without line break (C106_long_entry_refuted). Each request arrives in one round of the event loop's reads, in any pieces. The order of writing entries of several connections is that of their events (C108 and following)."
  },
  {
   "property": "C198",
   "status": "partial",
   "theorems": [
    "Fly.H2Refuse.C198_refused_alone_partial",
    "Fly.H2R.C101_empty_scheme_refuted"
   ],
   "note": "Full for the requests described; what is malformed for the RFC but accepted by the server (C100), a :scheme without value (undefined, C101) and wrong fields taken as right (C27, C29, C74) are left out. Connection errors (malformed frames and header blocks) are C60-C66 and H2Stream."
  },
  {
   "property": "C199",
   "status": "partial",
   "theorems": [
    "Fly.H2Wire.C199_frames_answered_partial"
   ],
   "note": "Frames of different requests may mix in any way, requests may be cancelled before they are complete (of those only the header block has to be correct); left out: padding (C64), CONTINUATION (C63), PING (C57), frames that end with the memory of the buffer, a window update over two chunks whose last byte is 128 or more (C07), responses that have to wait for the window (C59) and a second setting of the window (C56). The windows for a response are kept from the settings, the window updates and the responses before."
  },
  {
   "property": "C200",
   "status": "partial",
   "theorems": [
    "Fly.H2Access.C200_access_log_h2_partial",
    "Fly.H2Access.C200_query_refuted",
    "Fly.H2Access.C200_closed_window_refuted"
   ],
   "note": "Proved for requests without query that are short enough for the log (C106) from clients whose windows are open. Refuted for every request with a query (the line is cut by the length of the query) and for clients whose settings give no window (a response without content has been read whole, but nothing is logged). Fields that are no request, whose line depends on which of them were given, are left out."
  },
  {
   "property": "C201",
   "status": "partial",
   "theorems": [
    "Fly.H2Serve.C201_h2_serial_order_partial"
   ],
   "note": "For clients that speak as in C199 (see what is left out there). Clients that do not may end the worker (C129). Not mixed with HTTP/1 connections (those are C189's worker)."
  },
  {
   "property": "C202",
   "status": "partial",
   "theorems": [
    "Fly.H2Serve.C202_connections_apart_partial"
   ],
   "note": "For every frame whatever, but only while the worker runs (a frame may end it, C129), and only for applications whose results do not depend on the state; with state the order of C201 shows."
  },
  {
   "property": "C203",
   "status": "partial",
   "theorems": [
    "Fly.H2Any.C203_nothing_after_end",
    "Fly.H2Any.C203_one_response_partial"
   ],
   "note": "The first half is proved from the bytes for every client. The second half is proved with responses that are sent before the next frame is read; with a response that waits it is false (Fly.H2S.C63_answered_twice_refuted)."
  },
  {
   "property": "C204",
   "status": "partial",
   "theorems": [
    "Fly.H2L.C204_goodbye_closes_partial",
    "Fly.H2L.C204_nothing_sent_after_goodbye_refuted",
    "Fly.H2L.C204_waiting_response_refuted",
    "Fly.H2L.C204_handler_again_refuted",
    "Fly.H2L.C204_lower_stream_closes_refuted"
   ],
   "note": "True only of clients without complete requests under way. Otherwise refuted, in every schedule: nothing is sent any more; the response is lost, freed memory is read, or the handler runs twice."
  },
  {
   "property": "C205",
   "status": "partial",
   "theorems": [
    "Fly.H2Trip.C205_broken_off_partial",
    "Fly.Send.C16_h2_frame_resent_refuted",
    "Fly.Send.C16_h2_data_header_resent_refuted"
   ],
   "note": "Two runs of the same response are compared: one with any write results (pieces, interruptions and failures in the header frames and in the header of the DATA frame; pieces and blocking in the content), one in which everything is taken. What the first sends is a beginning of what the second sends. Missing: blocking within a frame of the header or the header of the DATA frame (then bytes are repeated: the refutations of C16), failures while the content is written, header blocks of more than 1000 bytes (they are lost: C66)."
  },
  {
   "property": "C206",
   "status": "partial",
   "theorems": [
    "Fly.H2Wire.C206_no_padding_partial",
    "Fly.H2Wire.C206_padded_headers_refuted",
    "Fly.H2Wire.C206_padded_data_refuted",
    "Fly.H2S.C64_padding_enters_body_refuted"
   ],
   "note": "Stated from the bytes of the frame to the fields and content of the request. Frames that are marked as padded with padding of length 0 are read correctly. Refuted for every other padding of DATA (it becomes content) and for padding of HEADERS by a multiple of three zeros (each three become a field with an empty name). Missing: padded header blocks over several chunks, paddings of HEADERS of other lengths."
  },
  {
   "property": "C207",
   "status": "partial",
   "theorems": [
    "Fly.H2Feed.C207_frames_in_order_partial",
    "Fly.H2Feed.C207_frames_at_once_partial",
    "Fly.H2Feed.C207_all_frames_partial",
    "Fly.H2Feed.C207_long_frame_refused_partial",
    "Fly.H2Feed.C207_places_partial",
    "Fly.H2Feed.C207_requests_answered_partial"
   ],
   "note": "The buffer may lie in any pieces of memory; reads may be empty (events with which nothing arrives); any frames may begin responses, after which the loop stops with bytes in the buffer. While a frame is handled its bytes lie at the place handed on, which links the bytes of any reads to the requests and responses of C199. Missing: buffers whose memory ends with the last byte, frames that end the connection (C124, C203), the events themselves (C124)."
  },
  {
   "property": "C208",
   "status": "partial",
   "theorems": [
    "Fly.H2Buf.C208_frames_in_order_partial",
    "Fly.H2Buf.C208_all_frames_partial",
    "Fly.H2Buf.C208_no_overflow_partial",
    "Fly.H2Buf.C208_wrong_preface_refused_partial",
    "Fly.H2Buf.C208_allowed_frame_overflows_refuted",
    "Fly.H2Buf.C208_requests_answered_partial",
    "Fly.H2Buf.C208_long_frame_refused_partial",
    "Fly.H2Buf.C208_split_preface_refused_refuted",
    "Fly.H2Buf.C208_pipelined_requests_overflow_refuted"
   ],
   "note": "Refuted as well: a client may send requests as fast as it likes; with every event one request at most is taken and a whole chunk is read, so enough requests at once run the buffer out of room and fail the connection. The receiving loop of C207 on the chunked buffer of C05 itself, from fly_buffer_init and the connection preface on, linked to the requests and responses of C199 at the places where the frames lie. Refuted: a frame the server allows is never handled if the buffer is not larger than the frame with its header, which the sizing of the buffer permits. Refuted too: a preface in pieces is refused with all frames behind it. Missing: overflow while frames pile up behind one that begins a response, frames that end the connection (C124, C203)."
  },
  {
   "property": "C209",
   "status": "partial",
   "theorems": [
    "Fly.H2A.C209_frames_released_once_partial",
    "Fly.H2A.C209_waiting_and_unacknowledged_refuted",
    "Fly.H2A.C209_client_leaves_refuted",
    "Fly.H2A.C209_overtaken_refuted"
   ],
   "note": "Proved for every history in which no acknowledgement overtakes a frame (C150), if no SETTINGS frame of the server is waiting or none has been sent since the last acknowledgement. Refuted in exactly the other case: a waiting SETTINGS frame is released as one to be sent and found again among those to be acknowledged; a client that keeps to the protocol can do this. Refuted as well right after an acknowledgement that overtakes a frame. Not covered: frames of streams other than the root stream."
  },
  {
   "property": "C210",
   "status": "partial",
   "theorems": [
    "Fly.H2Credit.C210_credit_reaches_client_partial",
    "Fly.H2Credit.C210_begun_update_replaced_refuted",
    "Fly.H2Credit.C210_wrong_increment_refuted",
    "Fly.H2Credit.C210_stopped_send_repeats_refuted"
   ],
   "note": "Proved for every history in which the socket never stops inside a frame. Refuted otherwise: a WINDOW_UPDATE whose header has gone out is taken back and combined with the next one, so that the client reads the header of the next frame as the increment, 1032 bytes whatever was credited. Refuted too without a further credit: what has gone out of the header or of the payload goes out again. Not covered: other frames between the WINDOW_UPDATEs."
  }
 ]
}
{
 "claims": [
  {
   "property": "C01",
   "status": "proved",
   "theorems": [
    "Memar.Binary.C01_be16_load",
    "Memar.Binary.C01_be16_store",
    "Memar.Binary.C01_be16_roundtrip",
    "Memar.Binary.C01_be32_load",
    "Memar.Binary.C01_be32_store",
    "Memar.Binary.C01_be32_roundtrip",
    "Memar.Binary.C01_be64_load",
    "Memar.Binary.C01_be64_store",
    "Memar.Binary.C01_be64_roundtrip",
    "Memar.Binary.C01_le16_load",
    "Memar.Binary.C01_le16_store",
    "Memar.Binary.C01_le16_roundtrip",
    "Memar.Binary.C01_le32_load",
    "Memar.Binary.C01_le32_store",
    "Memar.Binary.C01_le32_roundtrip",
    "Memar.Binary.C01_le64_load",
    "Memar.Binary.C01_le64_store",
    "Memar.Binary.C01_le64_roundtrip",
    "Memar.Binary.C01_u8_roundtrip",
    "Memar.Binary.C01_bool_roundtrip",
    "Memar.Binary.C01_bool_bytes"
   ],
   "note": ""
  },
  {
   "property": "C02",
   "status": "partial",
   "theorems": [
    "Memar.Binary.C02_cpu_check_partial",
    "Memar.Binary.C02_started_program_violated",
    "Memar.Binary.C02_be_on_be_cpu_is_le",
    "Memar.Binary.C02_le_on_be_cpu_is_be",
    "Memar.Binary.C02_portable_violated",
    "Memar.Binary.C02_portable_partial",
    "Memar.Binary.C02_portable_widths_violated"
   ],
   "note": "The code violates the property: the refutation and the exact set of values on which the builds agree are proved."
  },
  {
   "property": "C03",
   "status": "proved",
   "theorems": [
    "Memar.Syllab.C03_fixed_roundtrip",
    "Memar.Syllab.C03_int32_value",
    "Memar.Syllab.C03_fixed_out_of_range",
    "Memar.Syllab.C03_wraps"
   ],
   "note": "All integer kinds, all buffers and indexes."
  },
  {
   "property": "C04",
   "status": "proved",
   "theorems": [
    "Memar.Syllab.C04_field_roundtrip",
    "Memar.Syllab.C04_record_roundtrip",
    "Memar.Syllab.C04_short_buffer",
    "Memar.Syllab.C04_short_words",
    "Memar.Syllab.C04_unsafe_agrees",
    "Memar.Syllab.C04_unsafe_words"
   ],
   "note": ""
  },
  {
   "property": "C05",
   "status": "proved",
   "theorems": [
    "Memar.Syllab.C05_string_array_roundtrip"
   ],
   "note": ""
  },
  {
   "property": "C06",
   "status": "proved",
   "theorems": [
    "Memar.Math.C06_u8",
    "Memar.Math.C06_u16",
    "Memar.Math.C06_u32"
   ],
   "note": ""
  },
  {
   "property": "C07",
   "status": "partial",
   "theorems": [
    "Memar.Math.C07_u64_violated",
    "Memar.Math.C07_u64_product_violated",
    "Memar.Math.C07_u64_partial",
    "Memar.Math.C07_u64_accepts_partial",
    "Memar.Math.C07_u64_just_above_violated",
    "Memar.Math.C07_parse_print_u64_partial",
    "Memar.Math.C07_parse_print_u64_violated"
   ],
   "note": "The code violates the property for 20-digit texts (refuted); exact for up to 19 characters, exact for every in-range text, and the value modulo 2^64 in general."
  },
  {
   "property": "C08",
   "status": "proved",
   "theorems": [
    "Memar.Math.C08_print_parse",
    "Memar.Math.C08_print_injective",
    "Memar.Math.C08_parse_print"
   ],
   "note": "Texts of 64-bit numbers: see C07."
  },
  {
   "property": "C09",
   "status": "proved",
   "theorems": [
    "Memar.Math.C09_per_exact",
    "Memar.Math.C09_per_monotone"
   ],
   "note": "Exact floor and monotone for every N from ten to a billion."
  },
  {
   "property": "C10",
   "status": "proved",
   "theorems": [
    "Memar.Uri.C10_roundtrip",
    "Memar.Uri.C10_injective",
    "Memar.Uri.C10_any_number"
   ],
   "note": ""
  },
  {
   "property": "C11",
   "status": "proved",
   "theorems": [
    "Memar.Uri.C11_encoded",
    "Memar.Uri.C11_no_delimiters",
    "Memar.Uri.C11_unnamed",
    "Memar.Uri.C11_by_number"
   ],
   "note": ""
  },
  {
   "property": "C12",
   "status": "proved",
   "theorems": [
    "Memar.Uri.C12_length_exact",
    "Memar.Uri.C12_unescape_exact",
    "Memar.Uri.C12_length",
    "Memar.Uri.C12_by_number"
   ],
   "note": ""
  },
  {
   "property": "C13",
   "status": "proved",
   "theorems": [
    "Memar.Http.C13_get_is_first_addition",
    "Memar.Http.C13_absent_reads_empty",
    "Memar.Http.C13_iteration_lists_all_values",
    "Memar.Http.C13_other_names_unaffected"
   ],
   "note": ""
  },
  {
   "property": "C14",
   "status": "partial",
   "theorems": [
    "Memar.Http.C14_del_changes_nothing_partial",
    "Memar.Http.C14_exclude_changes_nothing_partial",
    "Memar.Http.C14_set_exact_partial",
    "Memar.Http.C14_set_of_absent_partial",
    "Memar.Http.C14_set_does_not_replace_violated",
    "Memar.Http.C14_del_does_not_delete_violated"
   ],
   "note": "The code violates the property (refuted for every header); exact behaviour of set, delete and exclude proved."
  },
  {
   "property": "C15",
   "status": "proved",
   "theorems": [
    "Memar.Http.C15_pass_only_own_domain",
    "Memar.Http.C15_own_domain_passes",
    "Memar.Http.C15_redirects",
    "Memar.Http.C15_other_hosts_rejected"
   ],
   "note": ""
  },
  {
   "property": "C16",
   "status": "proved",
   "theorems": [
    "Memar.Http.C16_dispatch_iff",
    "Memar.Http.C16_wrong_method",
    "Memar.Http.C16_bad_query",
    "Memar.Http.C16_unknown_service"
   ],
   "note": "For every parser of identifiers; the code's own parser is the subject of C181."
  },
  {
   "property": "C17",
   "status": "proved",
   "theorems": [
    "Memar.Http.C17_value_exact",
    "Memar.Http.C17_path_exact",
    "Memar.Http.C17_legal_unchanged",
    "Memar.Http.C17_subsequence_and_idempotent",
    "Memar.Http.C17_name_line_breaks",
    "Memar.Http.C17_check_cookie",
    "Memar.Http.C17_check_set_cookie",
    "Memar.Http.C17_check_set_cookie_ok"
   ],
   "note": ""
  },
  {
   "property": "C18",
   "status": "proved",
   "theorems": [
    "Memar.Timer.C18_add_exact",
    "Memar.Timer.C18_siftUp_exact",
    "Memar.Timer.C18_siftDown_exact",
    "Memar.Timer.C18_delete_exact",
    "Memar.Timer.C18_delete0_exact",
    "Memar.Timer.C18_panics_iff",
    "Memar.Timer.C18_history_conserves"
   ],
   "note": ""
  },
  {
   "property": "C19",
   "status": "proved",
   "theorems": [
    "Memar.Timer.C19_step_keeps_order",
    "Memar.Timer.C19_history_order",
    "Memar.Timer.C19_first_is_earliest",
    "Memar.Timer.C19_history_first_is_earliest",
    "Memar.Timer.C19_drain_sorted"
   ],
   "note": ""
  },
  {
   "property": "C20",
   "status": "proved",
   "theorems": [
    "Memar.Timer.C20_when_exact",
    "Memar.Timer.C20_never_in_the_past",
    "Memar.Timer.C20_monotone"
   ],
   "note": ""
  },
  {
   "property": "C21",
   "status": "proved",
   "theorems": [
    "Memar.Timer.Queue.C21_stop_returns"
   ],
   "note": ""
  },
  {
   "property": "C22",
   "status": "proved",
   "theorems": [
    "Memar.Timer.Protocol.C22_start_alone",
    "Memar.Timer.Protocol.C22_reset_alone",
    "Memar.Timer.Protocol.C22_no_racy_access",
    "Memar.Timer.Protocol.C22_at_rest",
    "Memar.Timer.Protocol.C22_documented_transitions",
    "Memar.Timer.Protocol.C22_stop_exact",
    "Memar.Timer.Protocol.C22_stopped_not_run"
   ],
   "note": "Start, stop, reset and the timing goroutine as an explicit-step machine with any interleaving; moving timers between queues is not modelled."
  },
  {
   "property": "C23",
   "status": "proved",
   "theorems": [
    "Memar.Pool.C23_get_exclusive",
    "Memar.Pool.C23_get_created",
    "Memar.Pool.C23_held_once"
   ],
   "note": ""
  },
  {
   "property": "C24",
   "status": "partial",
   "theorems": [
    "Memar.Pool.C24_limit_violated",
    "Memar.Pool.C24_limit_up_to_nil_partial",
    "Memar.Pool.C24_limit_without_cleaner_partial",
    "Memar.Pool.C24_limit_small_partial"
   ],
   "note": "The code violates the limit (refuted for every limit of at least four); proved up to the slots that never held an item, without the cleaner, and for small limits."
  },
  {
   "property": "C25",
   "status": "proved",
   "theorems": [
    "Memar.Buffer.C25_writes_append",
    "Memar.Buffer.C25_write_reports_all",
    "Memar.Buffer.C25_reset"
   ],
   "note": ""
  },
  {
   "property": "C26",
   "status": "proved",
   "theorems": [
    "Memar.Validators.C26_luhn_exact",
    "Memar.Validators.C26_detects_single_error",
    "Memar.Validators.C26_detects_transposition",
    "Memar.Validators.C26_unique_check_digit"
   ],
   "note": ""
  },
  {
   "property": "C27",
   "status": "proved",
   "theorems": [
    "Memar.Time.C27_split_recombine",
    "Memar.Time.C27_split_exact",
    "Memar.Time.C27_recombine_split"
   ],
   "note": ""
  },
  {
   "property": "C28",
   "status": "proved",
   "theorems": [
    "Memar.Time.C28_strict_total_order",
    "Memar.Time.C28_agrees_with_instants",
    "Memar.Time.C28_until_difference"
   ],
   "note": ""
  },
  {
   "property": "C29",
   "status": "proved",
   "theorems": [
    "Memar.Time.C29_weekday",
    "Memar.Time.C29_weekday_check"
   ],
   "note": ""
  },
  {
   "property": "C30",
   "status": "proved",
   "theorems": [
    "Memar.Identifier.C30_new16",
    "Memar.Identifier.C30_newHash16",
    "Memar.Identifier.C30_unique16",
    "Memar.Identifier.C30_newRandom16",
    "Memar.Identifier.C30_new32",
    "Memar.Identifier.C30_generated",
    "Memar.Identifier.C30_id_text",
    "Memar.Identifier.C30_id_text_any"
   ],
   "note": ""
  },
  {
   "property": "C31",
   "status": "proved",
   "theorems": [
    "Memar.Identifier.Rfc4122.C31_v4",
    "Memar.Identifier.Rfc4122.C31_v4_no_random",
    "Memar.Identifier.Rfc4122.C31_text",
    "Memar.Identifier.Rfc4122.C31_utility_text",
    "Memar.Identifier.Rfc4122.C31_uri",
    "Memar.Identifier.Rfc4122.C31_text_shape",
    "Memar.Identifier.Rfc4122.C31_text_injective",
    "Memar.Identifier.Rfc4122.C31_hex_digits",
    "Memar.Identifier.Rfc4122.C31_integers"
   ],
   "note": ""
  },
  {
   "property": "C32",
   "status": "proved",
   "theorems": [
    "Memar.Net.Tcp.C32_layout",
    "Memar.Net.Tcp.C32_set_field",
    "Memar.Net.Tcp.C32_set_flag",
    "Memar.Net.Tcp.C32_unset_flag",
    "Memar.Net.Tcp.C32_flag_bits"
   ],
   "note": ""
  },
  {
   "property": "C33",
   "status": "proved",
   "theorems": [
    "Memar.Net.Tcp.C33_check",
    "Memar.Net.Tcp.C33_checked_reads",
    "Memar.Net.Tcp.C33_set_flag_bytes",
    "Memar.Net.Tcp.C33_set_options"
   ],
   "note": ""
  },
  {
   "property": "C34",
   "status": "proved",
   "theorems": [
    "Memar.Net.C34_ipv4_layout",
    "Memar.Net.C34_ipv4_set",
    "Memar.Net.C34_ipv6_layout",
    "Memar.Net.C34_ipv6_set",
    "Memar.Net.C34_udp_layout",
    "Memar.Net.C34_udp_set",
    "Memar.Net.C34_gp_layout",
    "Memar.Net.C34_gp_set",
    "Memar.Net.C34_gpaddr_layout",
    "Memar.Net.C34_gpaddr_set",
    "Memar.Net.Ipv4.C34_ipv4_check",
    "Memar.Net.Ipv4.C34_ipv4_checked_reads",
    "Memar.Net.Ipv4.C34_ipv4_fragment_flags",
    "Memar.Net.Ipv6.C34_ipv6_checked_reads",
    "Memar.Net.Udp.C34_udp_checked_reads",
    "Memar.Net.Gp.C34_gp_check",
    "Memar.Net.Ipv4.C34_ipv4_set_options",
    "Memar.Net.Ipv4.C34_ipv4_clear_ecn",
    "Memar.Net.Ipv4.C34_ipv4_mark_ecn",
    "Memar.Net.Ipv4.C34_ipv4_ect_either",
    "Memar.Net.Ipv4.C34_ipv4_set_payload",
    "Memar.Net.Ipv6.C34_ipv6_set_payload",
    "Memar.Net.Ipv6.C34_ipv6_check",
    "Memar.Net.Udp.C34_udp_check"
   ],
   "note": ""
  },
  {
   "property": "C35",
   "status": "proved",
   "theorems": [
    "Memar.Net.Ipv4Addr.C35_text",
    "Memar.Net.Ipv4Addr.C35_roundtrip",
    "Memar.Net.Ipv4Addr.C35_text_injective",
    "Memar.Net.Ipv4Addr.C35_parse_length",
    "Memar.Net.StdIp.C35_standard"
   ],
   "note": ""
  },
  {
   "property": "C36",
   "status": "partial",
   "theorems": [
    "Memar.Chapar.C36_content_partial",
    "Memar.Chapar.C36_length_violated",
    "Memar.Chapar.C36_short_violated",
    "Memar.Chapar.C36_twice_violated"
   ],
   "note": "Content of the reverse proved; the stored length, short paths and reversing twice are refuted for all paths."
  },
  {
   "property": "C37",
   "status": "proved",
   "theorems": [
    "Memar.Chapar.C37_travel",
    "Memar.Chapar.C37_init",
    "Memar.Chapar.C37_ports_and_path"
   ],
   "note": ""
  },
  {
   "property": "C38",
   "status": "partial",
   "theorems": [
    "Memar.Chapar.C38_broadcast_violated",
    "Memar.Chapar.C38_init_violated",
    "Memar.Chapar.C38_first_round_partial",
    "Memar.Chapar.C38_init_first_round_partial"
   ],
   "note": "The first round visits each port once; that the loop ends is refuted for every port table."
  },
  {
   "property": "C39",
   "status": "proved",
   "theorems": [
    "Memar.Net.Frames.C39_progress",
    "Memar.Net.Frames.C39_unknown_service",
    "Memar.Net.Frames.C39_service_looked_up"
   ],
   "note": ""
  },
  {
   "property": "C40",
   "status": "proved",
   "theorems": [
    "Memar.Event.C40_remove_earliest",
    "Memar.Event.C40_registration_order",
    "Memar.Event.C40_calls_each",
    "Memar.Event.C40_every_schedule",
    "Memar.Event.C40_no_deadlock"
   ],
   "note": ""
  },
  {
   "property": "C41",
   "status": "proved",
   "theorems": [
    "Memar.Registry.Errors.C41_by_id",
    "Memar.Registry.Errors.C41_by_media_type",
    "Memar.Registry.Errors.C41_dev_refused",
    "Memar.Registry.Errors.C41_dev_never_overwritten",
    "Memar.Registry.Errors.C41_lookups_agree"
   ],
   "note": ""
  },
  {
   "property": "C42",
   "status": "proved",
   "theorems": [
    "Memar.Registry.Services.C42_by_id",
    "Memar.Registry.Services.C42_by_media_type",
    "Memar.Registry.Services.C42_zero_rejected",
    "Memar.Registry.Services.C42_never_replaced"
   ],
   "note": ""
  },
  {
   "property": "C43",
   "status": "proved",
   "theorems": [
    "Memar.Metric.C43_sequential",
    "Memar.Metric.C43_any_interleaving",
    "Memar.Metric.C43_completes",
    "Memar.Metric.C43_conservation",
    "Memar.Metric.C43_conservation_always",
    "Memar.Metric.C43_conservation_quiescent",
    "Memar.Metric.C43_census"
   ],
   "note": "All histories and interleavings; counters are 64-bit words, so the law is modulo 2^64. Also a census theorem over connection life cycles."
  },
  {
   "property": "C44",
   "status": "proved",
   "theorems": [
    "Memar.Command.C44_assigns_in_order",
    "Memar.Command.C44_sound",
    "Memar.Command.C44_declarations",
    "Memar.Command.C44_lookup"
   ],
   "note": ""
  },
  {
   "property": "C45",
   "status": "proved",
   "theorems": [
    "Memar.File.C45_replaced",
    "Memar.File.C45_outside",
    "Memar.File.C45_nothing"
   ],
   "note": "All contents, all ascending lists of regions, whatever the spare capacity holds."
  },
  {
   "property": "C46",
   "status": "proved",
   "theorems": [
    "Memar.User.C46_kinds",
    "Memar.User.C46_chosen",
    "Memar.User.C46_set_inclusion",
    "Memar.User.C46_preorder",
    "Memar.User.C46_monotone",
    "Memar.User.C46_masks"
   ],
   "note": "All 8-bit masks, by bit reasoning."
  },
  {
   "property": "C47",
   "status": "proved",
   "theorems": [
    "Memar.Json.C47_uint",
    "Memar.Json.C47_uint_minified",
    "Memar.Json.C47_bool",
    "Memar.Json.C47_bool_minified",
    "Memar.Json.C47_string",
    "Memar.Json.C47_string_minified",
    "Memar.Json.C47_key",
    "Memar.Json.C47_key_minified",
    "Memar.Json.C47_slice",
    "Memar.Json.C47_slice_minified",
    "Memar.Json.C47_array",
    "Memar.Json.C47_array_minified",
    "Memar.Json.C47_int_minified",
    "Memar.Json.C47_object",
    "Memar.Json.C47_base64",
    "Memar.Json.C47_base64_capacity",
    "Memar.Json.C47_base64_minified",
    "Memar.Json.C47_list32",
    "Memar.Json.C47_array_texts",
    "Memar.Json.C47_one_number_then_null",
    "Memar.Json.C47_raw_string"
   ],
   "note": ""
  },
  {
   "property": "C48",
   "status": "proved",
   "theorems": [
    "Memar.Tcp.C48_total",
    "Memar.Tcp.C48_push",
    "Memar.Tcp.C48_active_open",
    "Memar.Tcp.C48_need_reset"
   ],
   "note": ""
  },
  {
   "property": "C49",
   "status": "proved",
   "theorems": [
    "Memar.Www.C49_js",
    "Memar.Www.C49_bad_number",
    "Memar.Www.C49_plain"
   ],
   "note": ""
  },
  {
   "property": "C50",
   "status": "proved",
   "theorems": [
    "Memar.Validators.C50_text_length"
   ],
   "note": ""
  },
  {
   "property": "C51",
   "status": "proved",
   "theorems": [
    "Memar.Math.C51_bool",
    "Memar.Math.C51_signed_print_injective",
    "Memar.Math.C51_signed_text"
   ],
   "note": ""
  },
  {
   "property": "C52",
   "status": "proved",
   "theorems": [
    "Memar.Http.C52_exactly_one_response",
    "Memar.Http.C52_host_check_guards_handlers",
    "Memar.Http.C52_registered_address",
    "Memar.Http.C52_unreadable_request",
    "Memar.Http.C52_every_arrival_answered_once",
    "Memar.Http.C52_readable_request"
   ],
   "note": ""
  },
  {
   "property": "C53",
   "status": "proved",
   "theorems": [
    "Memar.Http.C53_cookie_round_trip"
   ],
   "note": ""
  },
  {
   "property": "C54",
   "status": "partial",
   "theorems": [
    "Memar.Http.C54_set_cookie_round_trip_partial",
    "Memar.Http.C54_samesite_with_boolean_panics_violated"
   ],
   "note": "Proved for all values that do not combine SameSite with a boolean attribute; for all others refuted."
  },
  {
   "property": "C55",
   "status": "proved",
   "theorems": [
    "Memar.Http.C55_domain_exact",
    "Memar.Net.StdIp.C55_domain_standard"
   ],
   "note": "net.ParseIP is a parameter of which only three sanity facts are assumed."
  },
  {
   "property": "C56",
   "status": "partial",
   "theorems": [
    "Memar.Http.C56_single_coding_truncated_violated",
    "Memar.Http.C56_rest_truncated_violated",
    "Memar.Http.C56_leading_comma_panics_violated",
    "Memar.Http.C56_last_coding_partial",
    "Memar.Http.C56_no_coding_partial"
   ],
   "note": "The code violates the property (refuted); the reported last coding is right when there is a comma."
  },
  {
   "property": "C57",
   "status": "proved",
   "theorems": [
    "Memar.Http.C57_pragma_rule"
   ],
   "note": ""
  },
  {
   "property": "C58",
   "status": "proved",
   "theorems": [
    "Memar.Http.C58_content_length_round_trip",
    "Memar.Http.C58_absent_length_is_zero"
   ],
   "note": ""
  },
  {
   "property": "C59",
   "status": "partial",
   "theorems": [
    "Memar.Timer.C59_late_exact_violated",
    "Memar.Timer.C59_next_in_future_partial",
    "Memar.Timer.C59_late_timer_violated"
   ],
   "note": "Proved for timers that run less than one period late; for all others the exact deadline is proved, which refutes the property: it lies before the missed one, or is the last moment there is."
  },
  {
   "property": "C60",
   "status": "proved",
   "theorems": [
    "Memar.Timer.C60_sleepUntil_exact",
    "Memar.Timer.C60_wakeTime_exact",
    "Memar.Timer.C60_modifiedEarliest_exact"
   ],
   "note": ""
  },
  {
   "property": "C61",
   "status": "proved",
   "theorems": [
    "Memar.Timer.Queue.C61_callbacks_that_use_timers",
    "Memar.Timer.Queue.C61_callbacks_only_when_armed_and_due",
    "Memar.Timer.Queue.C61_stopped_timer_is_silent"
   ],
   "note": "One queue, calls that run one after the other; integer clock."
  },
  {
   "property": "C62",
   "status": "partial",
   "theorems": [
    "Memar.Timer.Queue.C62_front_blocks_violated",
    "Memar.Timer.Queue.C62_due_timers_run_with_callbacks_partial",
    "Memar.Timer.Queue.C62_due_timers_run_partial",
    "Memar.Timer.Queue.C62_periodic_blocks_others_violated"
   ],
   "note": "Proved for all programs without periodic timers; refuted with one."
  },
  {
   "property": "C63",
   "status": "proved",
   "theorems": [
    "Memar.Timer.Queue.C63_bookkeeping_with_callbacks",
    "Memar.Timer.Queue.C63_bookkeeping"
   ],
   "note": ""
  },
  {
   "property": "C64",
   "status": "proved",
   "theorems": [
    "Memar.Timer.Queue.C64_sweep_exact",
    "Memar.Timer.Queue.C64_check_bounds_stopped"
   ],
   "note": ""
  },
  {
   "property": "C65",
   "status": "partial",
   "theorems": [
    "Memar.Timer.Queue.C65_ticker_that_resets_itself_violated",
    "Memar.Timer.Queue.C65_check_returns_partial",
    "Memar.Timer.Queue.C65_check_after_reset_violated",
    "Memar.Timer.Queue.C65_check_violated"
   ],
   "note": "The code violates the property (refuted for every queue with a due reset timer); proved for programs without periodic timers in states without pending resets."
  },
  {
   "property": "C66",
   "status": "proved",
   "theorems": [
    "Memar.Timer.Queue.C66_failed_call_is_inert",
    "Memar.Timer.Queue.C66_duration_check"
   ],
   "note": ""
  },
  {
   "property": "C67",
   "status": "proved",
   "theorems": [
    "Memar.Timer.Ticker.C67_refuses_below_one",
    "Memar.Timer.Ticker.C67_signal_is_one_slot"
   ],
   "note": ""
  },
  {
   "property": "C68",
   "status": "partial",
   "theorems": [
    "Memar.Timer.Wheel.C68_every_period_drifts_violated",
    "Memar.Timer.Wheel.C68_tick_panics_violated",
    "Memar.Timer.Wheel.C68_made",
    "Memar.Timer.Wheel.C68_runs_again_partial",
    "Memar.Timer.Wheel.C68_fires_on_its_tick_partial",
    "Memar.Timer.Wheel.C68_no_wrap_violated",
    "Memar.Timer.Wheel.C68_one_shot_runs_at_once_violated",
    "Memar.Timer.Wheel.C68_period_drifts_violated"
   ],
   "note": "The code violates the property in four ways (refuted); the tick on which a timer runs is proved exactly when its slot lies ahead."
  },
  {
   "property": "C69",
   "status": "partial",
   "theorems": [
    "Memar.Pool.C69_lifo_violated",
    "Memar.Pool.C69_hot_item_partial",
    "Memar.Pool.C69_hot_item_first_violated"
   ],
   "note": "The code violates LIFO order (refuted); the hot item is proved to be handed out first when nobody interferes."
  },
  {
   "property": "C70",
   "status": "partial",
   "theorems": [
    "Memar.Pool.C70_close_exact_partial",
    "Memar.Pool.C70_close_leaks_violated"
   ],
   "note": "The code leaks the hot and the set-aside items (refuted); proved for the remaining ones."
  },
  {
   "property": "C71",
   "status": "proved",
   "theorems": [
    "Memar.Pool.C71_get_after_close",
    "Memar.Pool.C71_put_after_close",
    "Memar.Pool.C71_close_is_final",
    "Memar.Pool.C71_get_creates"
   ],
   "note": ""
  },
  {
   "property": "C72",
   "status": "proved",
   "theorems": [
    "Memar.Buffer.C72_grow_makes_room",
    "Memar.Buffer.C72_capacity",
    "Memar.Buffer.C72_no_second_allocation"
   ],
   "note": ""
  },
  {
   "property": "C73",
   "status": "proved",
   "theorems": [
    "Memar.Time.C73_store_alone",
    "Memar.Time.C73_swap_alone"
   ],
   "note": ""
  },
  {
   "property": "C74",
   "status": "partial",
   "theorems": [
    "Memar.Time.C74_second_elapsed_violated",
    "Memar.Time.C74_nano_in_second_violated",
    "Memar.Time.C74_arithmetic_partial"
   ],
   "note": "Seconds and nanoseconds refuted for every time; arithmetic proved."
  },
  {
   "property": "C75",
   "status": "proved",
   "theorems": [
    "Memar.Time.C75_hours_days",
    "Memar.Time.C75_elapsed_units"
   ],
   "note": ""
  },
  {
   "property": "C76",
   "status": "proved",
   "theorems": [
    "Memar.Net.Ipv6Addr.C76_parse_full",
    "Memar.Net.Ipv6Addr.C76_parse_ellipsis",
    "Memar.Net.Ipv6Addr.C76_mapped",
    "Memar.Net.Ipv6Addr.C76_kinds",
    "Memar.Net.Ipv6Addr.C76_multicast_scope",
    "Memar.Net.Ipv6Addr.C76_link_local",
    "Memar.Net.Ipv6Addr.C76_kinds_exact"
   ],
   "note": ""
  },
  {
   "property": "C77",
   "status": "proved",
   "theorems": [
    "Memar.Chapar.C77_set_alternative",
    "Memar.Chapar.C77_alternatives_distinct"
   ],
   "note": ""
  },
  {
   "property": "C78",
   "status": "proved",
   "theorems": [
    "Memar.Registry.Types.C78_media_types",
    "Memar.Registry.Types.C78_compress_types",
    "Memar.Registry.Types.C78_listed_found",
    "Memar.Registry.Types.C78_parse"
   ],
   "note": "All histories of registrations; media type parsing for all texts."
  },
  {
   "property": "C79",
   "status": "partial",
   "theorems": [
    "Memar.Registry.ErrorValue.C79_values",
    "Memar.Registry.ErrorValue.C79_wrap_values",
    "Memar.Registry.ErrorValue.C79_wrapped_nil_violated",
    "Memar.Registry.ErrorValue.C79_is_equal",
    "Memar.Registry.ErrorValue.C79_chain",
    "Memar.Registry.ErrorValue.C79_chain_deep",
    "Memar.Registry.ErrorValue.C79_chain_deep_past"
   ],
   "note": "Equivalence relation, wrapping of any depth, wrapping nil answers no chain. Refuted: the nil pointer that wrapping nil answers, kept as an error value, is a non-nil error."
  },
  {
   "property": "C80",
   "status": "proved",
   "theorems": [
    "Memar.Metric.C80_traffic",
    "Memar.Metric.C80_sequential",
    "Memar.Metric.C80_order"
   ],
   "note": "All goroutine schedules; 64-bit words."
  },
  {
   "property": "C81",
   "status": "partial",
   "theorems": [
    "Memar.User.C81_layout_partial",
    "Memar.User.C81_type_violated",
    "Memar.User.C81_time_violated",
    "Memar.User.C81_reads_partial",
    "Memar.User.C81_set_time_violated"
   ],
   "note": "Layout of the new identifier. Refuted for all inputs: type and time are never read back."
  },
  {
   "property": "C82",
   "status": "partial",
   "theorems": [
    "Memar.Command.C82_to_arguments_partial",
    "Memar.Command.C82_roundtrip_violated"
   ],
   "note": "What is written is characterised. Refuted for every object with a non-empty field."
  },
  {
   "property": "C83",
   "status": "proved",
   "theorems": [
    "Memar.Command.Cmd.C83_dispatch",
    "Memar.Command.Cmd.C83_rest_is_suffix",
    "Memar.Command.Cmd.C83_sub_command",
    "Memar.Command.Cmd.C83_refused",
    "Memar.Command.C83_path"
   ],
   "note": ""
  },
  {
   "property": "C84",
   "status": "proved",
   "theorems": [
    "Memar.File.C84_split",
    "Memar.File.C84_extension",
    "Memar.File.C84_hash_keeps_extension",
    "Memar.File.C84_hash_differs",
    "Memar.File.C84_parts_join"
   ],
   "note": ""
  },
  {
   "property": "C85",
   "status": "proved",
   "theorems": [
    "Memar.File.C85_finds"
   ],
   "note": ""
  },
  {
   "property": "C86",
   "status": "proved",
   "theorems": [
    "Memar.Json.C86_slice_terminates",
    "Memar.Json.C86_uint_shrinks",
    "Memar.Json.C86_key_shrinks",
    "Memar.Json.C86_key_left",
    "Memar.Json.C86_bool_panic",
    "Memar.Json.C86_string_panic",
    "Memar.Json.C86_null"
   ],
   "note": ""
  },
  {
   "property": "C87",
   "status": "partial",
   "theorems": [
    "Memar.Json.C87_error_dropped_violated",
    "Memar.Json.C87_stale_violated",
    "Memar.Json.C87_marshal_partial",
    "Memar.Json.C87_refused_text_violated"
   ],
   "note": "Proved for an unchanged object. Refuted: dropped error, stale text, refused text."
  },
  {
   "property": "C88",
   "status": "proved",
   "theorems": [
    "Memar.Www.C88_extract_anywhere",
    "Memar.Www.C88_extract",
    "Memar.Www.C88_collect",
    "Memar.Www.C88_once",
    "Memar.Www.C88_addJS_once"
   ],
   "note": ""
  },
  {
   "property": "C89",
   "status": "proved",
   "theorems": [
    "Memar.Www.C89_html_template",
    "Memar.Www.C89_css_html",
    "Memar.Www.C89_css_js",
    "Memar.Www.C89_html_js"
   ],
   "note": ""
  },
  {
   "property": "C90",
   "status": "partial",
   "theorems": [
    "Memar.Tcp.C90_mss_partial",
    "Memar.Tcp.C90_other_option_violated",
    "Memar.Tcp.C90_truncated_violated",
    "Memar.Tcp.C90_next_partial",
    "Memar.Tcp.C90_next_violated",
    "Memar.Tcp.C90_next_lands_violated"
   ],
   "note": "Proved for lists of maximum segment size options with or without an end mark and for the option types with the right length; violated (proved) for every other option, for cut-off options, and for four option types."
  },
  {
   "property": "C91",
   "status": "partial",
   "theorems": [
    "Memar.Tcp.C91_limit_partial",
    "Memar.Tcp.C91_wraps_violated",
    "Memar.Tcp.C91_reinit_violated"
   ],
   "note": "Proved for fewer than 256 retries of a fresh stream; violated (proved) by the wrap of the counter and by Reinit."
  },
  {
   "property": "C92",
   "status": "proved",
   "theorems": [
    "Memar.Tcp.C92_nothing_to_do",
    "Memar.Tcp.C92_used",
    "Memar.Tcp.C92_idle",
    "Memar.Tcp.C92_user_timeout_check"
   ],
   "note": ""
  },
  {
   "property": "C93",
   "status": "partial",
   "theorems": [
    "Memar.Tcp.C93_never_armed_violated",
    "Memar.Tcp.C93_off_by_default",
    "Memar.Tcp.C93_delayed_ack_partial"
   ],
   "note": "Violated (proved): no history ever arms the timer. Proved: the initial due times."
  },
  {
   "property": "C94",
   "status": "proved",
   "theorems": [
    "Memar.Pool.C94_init_exact",
    "Memar.Pool.C94_close_exact"
   ],
   "note": ""
  },
  {
   "property": "C95",
   "status": "partial",
   "theorems": [
    "Memar.Pool.C95_len_of_empty_violated",
    "Memar.Pool.C95_len_misses_hot_item_violated",
    "Memar.Pool.C95_len_partial"
   ],
   "note": "Len is false for every fresh pool of limit four or more and misses the hot item (both proved); the exact difference is proved"
  },
  {
   "property": "C96",
   "status": "partial",
   "theorems": [
    "Memar.Uri.C96_absolute_form_partial",
    "Memar.Uri.C96_origin_form_partial",
    "Memar.Uri.C96_host_form_partial",
    "Memar.Uri.C96_old_parts_stay_violated",
    "Memar.Uri.C96_colon_in_path_violated",
    "Memar.Uri.C96_no_path_violated",
    "Memar.Uri.C96_question_in_fragment_violated"
   ],
   "note": "the three forms are split exactly for every text outside four named combinations; for those combinations the wrong result is proved for all parts"
  },
  {
   "property": "C97",
   "status": "proved",
   "theorems": [
    "Memar.Uri.C97_nothing_lost"
   ],
   "note": ""
  },
  {
   "property": "C98",
   "status": "proved",
   "theorems": [
    "Memar.Uri.C98_written_is_read_back",
    "Memar.Uri.C98_origin_is_read_back",
    "Memar.Uri.C98_read_is_written_back",
    "Memar.Uri.C98_append"
   ],
   "note": "absolute and origin form; the fragment is by design never written"
  },
  {
   "property": "C99",
   "status": "partial",
   "theorems": [
    "Memar.Uri.C99_set_after_write_violated",
    "Memar.Uri.C99_reinit_violated",
    "Memar.Uri.C99_before_first_write_partial",
    "Memar.Uri.C99_len",
    "Memar.Uri.C99_len_violated"
   ],
   "note": "false of the code after the first write and after Reinit (proved for every URI); before the first write changes show; the exact length bound is proved"
  },
  {
   "property": "C100",
   "status": "partial",
   "theorems": [
    "Memar.Uri.C100_host_port_partial",
    "Memar.Uri.C100_user_partial",
    "Memar.Uri.C100_user_host_violated",
    "Memar.Uri.C100_uri_host_violated"
   ],
   "note": "host and port without user information, and user name and password, are exact; with user information host and port are wrong for every text (proved)"
  },
  {
   "property": "C101",
   "status": "proved",
   "theorems": [
    "Memar.Uri.C101_init",
    "Memar.Uri.C101_round_trip",
    "Memar.Uri.C101_keys"
   ],
   "note": "every map, every iteration order"
  },
  {
   "property": "C102",
   "status": "proved",
   "theorems": [
    "Memar.Uri.C102_exact",
    "Memar.Uri.C102_covers_all_texts"
   ],
   "note": ""
  },
  {
   "property": "C103",
   "status": "proved",
   "theorems": [
    "Memar.Uri.C103_set",
    "Memar.Uri.C103_add",
    "Memar.Uri.C103_del",
    "Memar.Uri.C103_history",
    "Memar.Uri.C103_history_has"
   ],
   "note": ""
  },
  {
   "property": "C104",
   "status": "proved",
   "theorems": [
    "Memar.Http.C104_first_is_best",
    "Memar.Http.C104_spaces_ignored"
   ],
   "note": ""
  },
  {
   "property": "C105",
   "status": "proved",
   "theorems": [
    "Memar.Http.C105_max_age",
    "Memar.Http.C105_no_age",
    "Memar.Http.C105_age_text",
    "Memar.Http.C105_other_attributes",
    "Memar.Http.C105_same_site",
    "Memar.Http.C105_over_the_wire",
    "Memar.Http.C105_one_line_per_cookie"
   ],
   "note": ""
  },
  {
   "property": "C106",
   "status": "proved",
   "theorems": [
    "Memar.Http.C106_status_text",
    "Memar.Http.C106_unknown_status_text",
    "Memar.Http.C106_get_status_code",
    "Memar.Http.C106_status_round_trip",
    "Memar.Http.C106_status_by_error",
    "Memar.Http.C106_redirect"
   ],
   "note": ""
  },
  {
   "property": "C107",
   "status": "proved",
   "theorems": [
    "Memar.Http.C107_sent_response",
    "Memar.Http.C107_length_announced"
   ],
   "note": ""
  },
  {
   "property": "C108",
   "status": "proved",
   "theorems": [
    "Memar.Http.C108_host_line_only_without_authority",
    "Memar.Http.C108_idempotent"
   ],
   "note": ""
  },
  {
   "property": "C109",
   "status": "proved",
   "theorems": [
    "Memar.Http.C109_errors_reported",
    "Memar.Http.C109_srpc_unsent",
    "Memar.Http.C109_srpc_serve"
   ],
   "note": ""
  },
  {
   "property": "C110",
   "status": "partial",
   "theorems": [
    "Memar.Http.C110_serves_file_partial",
    "Memar.Http.C110_missing_page_panics_violated"
   ],
   "note": "exact for every path with a file or a main page; a nil dereference without either is a proved violation"
  },
  {
   "property": "C111",
   "status": "proved",
   "theorems": [
    "Memar.Convert.C111_bytes_view",
    "Memar.Convert.C111_words_view",
    "Memar.Convert.C111_round_trip",
    "Memar.Convert.C111_back_trip",
    "Memar.Convert.C111_inside",
    "Memar.Convert.C111_shared",
    "Memar.Convert.C111_string"
   ],
   "note": ""
  },
  {
   "property": "C112",
   "status": "partial",
   "theorems": [
    "Memar.Os.C112_file_unusable_violated",
    "Memar.Os.C112_directory_unusable_violated",
    "Memar.Os.C112_mkdir_partial",
    "Memar.Os.C112_mkdir_again_violated",
    "Memar.Os.C112_search_violated",
    "Memar.Os.C112_delete_panics_violated"
   ],
   "note": "what the code does is given for every history; files, directories, search and delete by name are proved unusable"
  },
  {
   "property": "C113",
   "status": "proved",
   "theorems": [
    "Memar.Os.C113_directory_parts",
    "Memar.Os.C113_no_panic"
   ],
   "note": ""
  },
  {
   "property": "C114",
   "status": "proved",
   "theorems": [
    "Memar.Os.C114_listing_sorted",
    "Memar.Os.C114_find_files",
    "Memar.Os.C114_find_file"
   ],
   "note": ""
  },
  {
   "property": "C115",
   "status": "partial",
   "theorems": [
    "Memar.Os.C115_content_round_trip",
    "Memar.Os.C115_compress",
    "Memar.Os.C115_read_from_partial",
    "Memar.Os.C115_empty_reader_violated",
    "Memar.Os.C115_replace",
    "Memar.Os.C115_rename",
    "Memar.Os.C115_never_compressed"
   ],
   "note": "Held for every content and every way of writing it but one. Refuted: reading from an empty source that writes itself unsets the content."
  },
  {
   "property": "C116",
   "status": "proved",
   "theorems": [
    "Memar.Net.Socket.C116_init",
    "Memar.Net.Socket.C116_reinit"
   ],
   "note": ""
  },
  {
   "property": "C117",
   "status": "partial",
   "theorems": [
    "Memar.Net.Socket.C117_status_delivered_partial",
    "Memar.Net.Socket.C117_status_blocks_violated",
    "Memar.Net.Socket.C117_std_deadline_violated",
    "Memar.Net.Socket.C117_std_deadline_partial",
    "Memar.Net.Socket.C117_std_one_direction_violated",
    "Memar.Net.Socket.C117_std_both_directions_partial",
    "Memar.Net.Socket.C117_addresses_violated",
    "Memar.Net.Socket.C117_std_settings_violated",
    "Memar.Net.Socket.C117_deadline_now_violated"
   ],
   "note": "delivery holds when there is room; blocking for ever and inverted standard deadlines are proved violations"
  },
  {
   "property": "C118",
   "status": "proved",
   "theorems": [
    "Memar.Net.Socket.C118_wait_complete",
    "Memar.Net.Socket.C118_receive"
   ],
   "note": ""
  },
  {
   "property": "C119",
   "status": "partial",
   "theorems": [
    "Memar.Queue.C119_write_panics_violated",
    "Memar.Queue.C119_never_full_violated",
    "Memar.Queue.C119_overwritten_violated",
    "Memar.Queue.C119_middle_lost_violated",
    "Memar.Queue.C119_codec_partial",
    "Memar.Queue.C119_capacity"
   ],
   "note": "every queue a user can make panics on write, proved over all histories"
  },
  {
   "property": "C120",
   "status": "proved",
   "theorems": [
    "Memar.App.C120_change_announced",
    "Memar.App.C120_within_capacity",
    "Memar.App.C120_listeners_kept"
   ],
   "note": ""
  },
  {
   "property": "C121",
   "status": "proved",
   "theorems": [
    "Memar.App.C121_status_store",
    "Memar.App.C121_told"
   ],
   "note": ""
  },
  {
   "property": "C122",
   "status": "proved",
   "theorems": [
    "Memar.Time.C122_by_second_negative",
    "Memar.Time.C122_by_second"
   ],
   "note": ""
  },
  {
   "property": "C123",
   "status": "proved",
   "theorems": [
    "Memar.Time.C123_english_names",
    "Memar.Time.C123_names_distinct"
   ],
   "note": ""
  },
  {
   "property": "C124",
   "status": "partial",
   "theorems": [
    "Memar.Syllab.Gen.C124_roundtrip_partial",
    "Memar.Syllab.Gen.C124_layout",
    "Memar.Syllab.Gen.C124_unused_variables_violated",
    "Memar.Syllab.Gen.C124_uint64_slice_violated",
    "Memar.Syllab.Gen.C124_float64_array_violated",
    "Memar.Syllab.Gen.C124_string_slice_violated",
    "Memar.Syllab.Gen.C124_string_array_violated",
    "Memar.Syllab.Gen.C124_nested_lengths_partial",
    "Memar.Syllab.Gen.C124_no_heap",
    "Memar.Syllab.Gen.C124_floats_partial",
    "Memar.Syllab.Gen.C124_short_array_violated"
   ],
   "note": "round trip, lengths and layout for every struct of supported fields; unused variables, uint64 slices, float64 arrays, string slices and string arrays proved wrong"
  },
  {
   "property": "C125",
   "status": "proved",
   "theorems": [
    "Memar.Syllab.Gen.C125_tagged_out",
    "Memar.Syllab.Gen.C125_members"
   ],
   "note": ""
  },
  {
   "property": "C126",
   "status": "proved",
   "theorems": [
    "Memar.Syllab.Gen.C126_names",
    "Memar.Syllab.Gen.C126_functions"
   ],
   "note": ""
  },
  {
   "property": "C127",
   "status": "partial",
   "theorems": [
    "Memar.Syllab.Gen.C127_no_allocation_violated",
    "Memar.Syllab.Gen.C127_anonymous_violated",
    "Memar.Syllab.Gen.C127_endless_violated",
    "Memar.Syllab.Gen.C127_nested_violated",
    "Memar.Syllab.Gen.C127_ends_partial"
   ],
   "note": "Refuted as stated (see the _violated theorems); C127_ends_partial says what holds."
  },
  {
   "property": "C128",
   "status": "proved",
   "theorems": [
    "Memar.Os.C128_replace_location"
   ],
   "note": ""
  },
  {
   "property": "C129",
   "status": "partial",
   "theorems": [
    "Memar.Compress.C129_compressor_partial",
    "Memar.Compress.C129_flate_error",
    "Memar.Compress.C129_gzip_error_violated",
    "Memar.Compress.C129_reinit_violated",
    "Memar.Compress.C129_level_violated",
    "Memar.Compress.C129_write_partial",
    "Memar.Compress.C129_write_count_violated"
   ],
   "note": "exact for sources that do not fail; dropped source errors, second Init, bad levels and the count of WriteTo proved wrong; the library is a parameter"
  },
  {
   "property": "C130",
   "status": "proved",
   "theorems": [
    "Memar.Compress.C130_flate_read_only",
    "Memar.Compress.C130_flate_write",
    "Memar.Compress.C130_failing_source",
    "Memar.Compress.C130_refused_input",
    "Memar.Compress.C130_flate_error",
    "Memar.Compress.C130_decompressAll"
   ],
   "note": ""
  },
  {
   "property": "C131",
   "status": "partial",
   "theorems": [
    "Memar.Error.C131_convert_partial",
    "Memar.Error.C131_back_violated",
    "Memar.Error.C131_identity_violated"
   ],
   "note": "nil, framework errors and summaries; converting back is proved to panic"
  },
  {
   "property": "C132",
   "status": "partial",
   "theorems": [
    "Memar.Language.C132_text_partial",
    "Memar.Language.C132_char_partial",
    "Memar.Language.C132_last_violated",
    "Memar.Language.C132_compress_violated"
   ],
   "note": "all texts whose last character has four bytes; others proved to panic; Compress and UnCompress proved to lose every text"
  },
  {
   "property": "C133",
   "status": "partial",
   "theorems": [
    "Memar.Www.Assets.C133_style_dir_partial",
    "Memar.Www.Assets.C133_hashed_partial",
    "Memar.Www.Assets.C133_page_partial",
    "Memar.Www.Assets.C133_stale_violated",
    "Memar.Www.Assets.C133_compressed_stale_violated",
    "Memar.Www.Assets.C133_page_empty_violated",
    "Memar.Www.Assets.C133_landing_partial",
    "Memar.Www.Assets.C133_landing_json_violated",
    "Memar.Www.Assets.C133_worker",
    "Memar.Www.Assets.C133_style_partial",
    "Memar.Www.Assets.C133_reload_violated",
    "Memar.Www.Assets.C133_substring_violated"
   ],
   "note": "hashed names, pages, service workers, landing pages and style links proved under the stated conditions; stale names, stale compressed forms, unread landing page and locale files, growing directories and overlapping sheet names proved wrong"
  },
  {
   "property": "C134",
   "status": "proved",
   "theorems": [
    "Memar.Www.Assets.C134_compress"
   ],
   "note": ""
  },
  {
   "property": "C135",
   "status": "proved",
   "theorems": [
    "Memar.GoParser.C135_fields",
    "Memar.GoParser.C135_names",
    "Memar.GoParser.C135_terminates",
    "Memar.GoParser.C135_functions",
    "Memar.GoParser.C135_types",
    "Memar.GoParser.C135_imports",
    "Memar.GoParser.C135_error",
    "Memar.GoParser.C135_init",
    "Memar.GoParser.C135_base",
    "Memar.GoParser.C135_base_empty",
    "Memar.GoParser.C135_error_iff"
   ],
   "note": ""
  },
  {
   "property": "C136",
   "status": "proved",
   "theorems": [
    "Memar.Tcp.OverIp.C136_isolated",
    "Memar.Tcp.OverIp.C136_no_service"
   ],
   "note": ""
  },
  {
   "property": "C137",
   "status": "proved",
   "theorems": [
    "Memar.Log.C137_make",
    "Memar.Log.C137_caller",
    "Memar.Log.C137_no_panic",
    "Memar.Log.C137_levels",
    "Memar.Log.C137_level_values"
   ],
   "note": ""
  },
  {
   "property": "C138",
   "status": "proved",
   "theorems": [
    "Memar.Chapar.C138_send",
    "Memar.Chapar.C138_static_length",
    "Memar.Chapar.C138_register"
   ],
   "note": ""
  },
  {
   "property": "C139",
   "status": "proved",
   "theorems": [
    "Memar.Net.Frames.C139_call",
    "Memar.Net.Frames.C139_error",
    "Memar.Net.Frames.C139_padding"
   ],
   "note": ""
  },
  {
   "property": "C140",
   "status": "proved",
   "theorems": [
    "Memar.Http.C140_request_reads_only_its_own_use",
    "Memar.Http.C140_first_use_writes_its_uri",
    "Memar.Http.C140_response_reads_only_its_own_use",
    "Memar.Http.C140_body_passes_on"
   ],
   "note": ""
  },
  {
   "property": "C141",
   "status": "proved",
   "theorems": [
    "Memar.Tcp.C141_keep_alive_reset_then_init",
    "Memar.Tcp.C141_user_timeout_init",
    "Memar.Tcp.C141_user_timeout_reset",
    "Memar.Tcp.C141_timing_reset",
    "Memar.Tcp.C141_reset_values"
   ],
   "note": ""
  },
  {
   "property": "C142",
   "status": "proved",
   "theorems": [
    "Memar.Json.C142_decode",
    "Memar.Json.C142_write_to",
    "Memar.Json.C142_array",
    "Memar.Json.C142_array_minified",
    "Memar.Json.C142_array_damaged",
    "Memar.Json.C142_array_null",
    "Memar.Json.C142_float_minified",
    "Memar.Json.C142_token_once",
    "Memar.Json.C142_encode"
   ],
   "note": ""
  },
  {
   "property": "C143",
   "status": "proved",
   "theorems": [
    "Memar.Timer.Queue.C143_verify_exact",
    "Memar.Timer.Queue.C143_verify_passes"
   ],
   "note": ""
  },
  {
   "property": "C144",
   "status": "proved",
   "theorems": [
    "Memar.Timer.Queue.C144_one_signal",
    "Memar.Timer.Queue.C144_signals_are_firings",
    "Memar.Timer.Queue.C144_new_timer"
   ],
   "note": ""
  },
  {
   "property": "C145",
   "status": "proved",
   "theorems": [
    "Memar.Minify.C145_html",
    "Memar.Minify.C145_html_text",
    "Memar.Minify.C145_codec"
   ],
   "note": ""
  },
  {
   "property": "C146",
   "status": "proved",
   "theorems": [
    "Memar.Command.C146_visits",
    "Memar.Command.C146_visit_read",
    "Memar.Command.C146_args",
    "Memar.Command.C146_again",
    "Memar.Command.C146_short_path",
    "Memar.Command.C146_test_file"
   ],
   "note": ""
  },
  {
   "property": "C147",
   "status": "proved",
   "theorems": [
    "Memar.Timer.Queue.C147_sleep_woken",
    "Memar.Timer.Queue.C147_wakes",
    "Memar.Timer.Queue.C147_ran",
    "Memar.Timer.Queue.C147_sleep"
   ],
   "note": ""
  },
  {
   "property": "C148",
   "status": "proved",
   "theorems": [
    "Memar.Gui.C148_request",
    "Memar.Gui.C148_file",
    "Memar.Gui.C148_default_name",
    "Memar.Gui.C148_texts",
    "Memar.Gui.C148_new_texts"
   ],
   "note": ""
  },
  {
   "property": "C149",
   "status": "proved",
   "theorems": [
    "Memar.Timer.WheelStop.C149_stop_waiting",
    "Memar.Timer.WheelStop.C149_stop_ends",
    "Memar.Timer.WheelStop.C149_answer"
   ],
   "note": ""
  },
  {
   "property": "C150",
   "status": "partial",
   "theorems": [
    "Memar.Crypto.C150_round_trip_partial",
    "Memar.Crypto.C150_secrecy_violated",
    "Memar.Crypto.C150_tampering_violated",
    "Memar.Crypto.C150_key_violated",
    "Memar.Crypto.C150_application_keys_violated",
    "Memar.Crypto.C150_round_keys_violated"
   ],
   "note": "Only the round trip holds (C150_round_trip_partial), because nothing is encrypted: C150_secrecy_violated, C150_tampering_violated, C150_key_violated, C150_application_keys_violated."
  },
  {
   "property": "C151",
   "status": "proved",
   "theorems": [
    "Memar.Identifier.C151_text",
    "Memar.Identifier.C151_random",
    "Memar.Identifier.C151_short_text",
    "Memar.Identifier.C151_equal"
   ],
   "note": ""
  },
  {
   "property": "C152",
   "status": "partial",
   "theorems": [
    "Memar.Gui.Registry.C152_register_violated",
    "Memar.Gui.Registry.C152_registry_partial",
    "Memar.Gui.Registry.C152_navigate_violated"
   ],
   "note": "C152_registry_partial for a registry whose map was made; no code makes it, so every registration panics (C152_register_violated). Navigation does nothing (C152_navigate_violated)."
  },
  {
   "property": "C153",
   "status": "partial",
   "theorems": [
    "Memar.Os.C153_files_partial",
    "Memar.Os.C153_order_violated",
    "Memar.Os.C153_same_time_partial"
   ],
   "note": "No file is lost (C153_files_partial); the order is ascending, so wrong for any two files of different times (C153_order_violated). sort.Sort is a parameter with its documented promise."
  },
  {
   "property": "C154",
   "status": "proved",
   "theorems": [
    "Memar.Operation.C154_check",
    "Memar.Operation.C154_mix",
    "Memar.Operation.C154_set",
    "Memar.Operation.C154_all_none",
    "Memar.Operation.C154_named"
   ],
   "note": "C154_check, C154_mix, C154_set, C154_all_none and C154_named."
  },
  {
   "property": "C155",
   "status": "proved",
   "theorems": [
    "Memar.Time.Earth.C155_seconds",
    "Memar.Time.Earth.C155_units",
    "Memar.Time.Earth.C155_constants"
   ],
   "note": ""
  },
  {
   "property": "C156",
   "status": "proved",
   "theorems": [
    "Memar.Uri.C156_read",
    "Memar.Uri.C156_last",
    "Memar.Uri.C156_write",
    "Memar.Uri.C156_write_again"
   ],
   "note": ""
  },
  {
   "property": "C157",
   "status": "partial",
   "theorems": [
    "Memar.ErrorKind.C157_kind_partial",
    "Memar.ErrorKind.C157_wrapped_violated"
   ],
   "note": "C157_kind_partial for errors that are not wrapped; a wrapped error has lost its kind (C157_wrapped_violated)."
  },
  {
   "property": "C158",
   "status": "proved",
   "theorems": [
    "Memar.Net.Gp.C158_init",
    "Memar.Net.Gp.C158_link_send",
    "Memar.Net.Gp.C158_connection_addresses"
   ],
   "note": ""
  },
  {
   "property": "C159",
   "status": "proved",
   "theorems": [
    "Memar.Http.C159_text_lines",
    "Memar.Http.C159_body_length",
    "Memar.Http.C159_content_type",
    "Memar.Http.C159_get_expire",
    "Memar.Http.C159_set_expire"
   ],
   "note": ""
  },
  {
   "property": "C160",
   "status": "proved",
   "theorems": [
    "Memar.Registry.Types.C160_compress_lookups",
    "Memar.Registry.Types.C160_builtin",
    "Memar.Registry.Types.C160_builtin_names"
   ],
   "note": ""
  },
  {
   "property": "C161",
   "status": "proved",
   "theorems": [
    "Memar.Math.C161_equal_integers",
    "Memar.Math.C161_equal_floats",
    "Memar.Math.C161_equal_floats_equivalence",
    "Memar.Math.C161_general_reader",
    "Memar.Math.C161_general_reader_refuses",
    "Memar.Math.C161_float_text"
   ],
   "note": ""
  },
  {
   "property": "C162",
   "status": "proved",
   "theorems": [
    "Memar.Json.C162_int32",
    "Memar.Json.C162_numbers_base64",
    "Memar.Json.C162_numbers_base64_room",
    "Memar.Json.C162_float_round_trip",
    "Memar.Json.C162_runtime_marshal",
    "Memar.Json.C162_runtime_round_trip",
    "Memar.Json.C162_reset_token",
    "Memar.Json.C162_reset_fresh"
   ],
   "note": ""
  },
  {
   "property": "C163",
   "status": "proved",
   "theorems": [
    "Memar.Www.C163_all_languages",
    "Memar.Www.C163_each_language",
    "Memar.Www.C163_reload",
    "Memar.Www.C163_init"
   ],
   "note": ""
  },
  {
   "property": "C164",
   "status": "proved",
   "theorems": [
    "Memar.Compress.C164_compressor_read_only",
    "Memar.Compress.C164_decompressor_answers",
    "Memar.Compress.C164_encode",
    "Memar.Compress.C164_chain",
    "Memar.Compress.C164_chain_flate_error",
    "Memar.Compress.C164_kinds",
    "Memar.Compress.C164_made"
   ],
   "note": ""
  },
  {
   "property": "C165",
   "status": "partial",
   "theorems": [
    "Memar.Timer.Queue.C165_start_up_violated",
    "Memar.Timer.Queue.C165_start_up_partial",
    "Memar.Timer.Queue.C165_core_number_violated",
    "Memar.Timer.Queue.C165_unserved_violated",
    "Memar.Timer.Queue.C165_no_queue_violated",
    "Memar.Timer.Queue.C165_cores_apart_partial",
    "Memar.Timer.Queue.C165_served_partial"
   ],
   "note": "C165_start_up_partial, C165_cores_apart_partial, C165_served_partial hold for cores below GOMAXPROCS. More processors than cores panic at start (C165_start_up_violated), all queues keep the same core number (C165_core_number_violated), a timer on a core past GOMAXPROCS never runs (C165_unserved_violated), a core number past the number of cores panics (C165_no_queue_violated)."
  },
  {
   "property": "C166",
   "status": "proved",
   "theorems": [
    "Memar.Time.C166_units",
    "Memar.Time.C166_now",
    "Memar.Time.C166_pass_now"
   ],
   "note": ""
  },
  {
   "property": "C167",
   "status": "proved",
   "theorems": [
    "Memar.Time.C167_now",
    "Memar.Time.C167_adds",
    "Memar.Time.C167_swaps",
    "Memar.Time.C167_compare"
   ],
   "note": ""
  },
  {
   "property": "C168",
   "status": "partial",
   "theorems": [
    "Memar.Time.C168_text_is_placeholder_violated",
    "Memar.Time.C168_same_text_violated",
    "Memar.Time.C168_read_violated",
    "Memar.Time.C168_atomic_violated",
    "Memar.Time.C168_same_object_partial"
   ],
   "note": "No kind of time has a text (C168_same_text_violated, C168_read_violated, C168_atomic_violated); only reading back into the same object keeps the time (C168_same_object_partial)."
  },
  {
   "property": "C169",
   "status": "partial",
   "theorems": [
    "Memar.Os.C169_move_violated",
    "Memar.Os.C169_missing_violated",
    "Memar.Os.C169_wipe_violated",
    "Memar.Os.C169_wipe_partial",
    "Memar.Os.C169_directories_violated",
    "Memar.Os.C169_hidden_partial",
    "Memar.Os.C169_hidden_directory_violated"
   ],
   "note": "Hidden holds for paths without a final slash (C169_hidden_partial), wiping removes the file (C169_wipe_partial). Rename, Copy and Move answer success and do nothing (C169_move_violated, C169_missing_violated), wiping never overwrites (C169_wipe_violated), no directory is listed (C169_directories_violated), asking whether a directory is hidden panics (C169_hidden_directory_violated)."
  },
  {
   "property": "C170",
   "status": "partial",
   "theorems": [
    "Memar.Os.C170_shutdown_partial",
    "Memar.Os.C170_never_called_violated",
    "Memar.Os.C170_registered_partial",
    "Memar.Os.C170_other_header_violated"
   ],
   "note": "C170_shutdown_partial, C170_registered_partial. Shutdown of the operating system tells no multiplexer (C170_never_called_violated), and other headers are dropped (C170_other_header_violated)."
  },
  {
   "property": "C171",
   "status": "partial",
   "theorems": [
    "Memar.Tcp.C171_mss_partial",
    "Memar.Tcp.C171_one_byte_violated",
    "Memar.Tcp.C171_four_bytes_violated",
    "Memar.Tcp.C171_announced_violated"
   ],
   "note": "The maximum segment size is read as sent (C171_mss_partial). Options of one byte are read with the byte after them (C171_one_byte_violated), those of four bytes only by their upper half (C171_four_bytes_violated), and what the peer announces is never in effect (C171_announced_violated)."
  },
  {
   "property": "C172",
   "status": "proved",
   "theorems": [
    "Memar.Tcp.C172_ports"
   ],
   "note": ""
  },
  {
   "property": "C173",
   "status": "partial",
   "theorems": [
    "Memar.Codec.C173_into_socket_violated",
    "Memar.Codec.C173_into_json_partial",
    "Memar.Codec.C173_from_uri_partial",
    "Memar.Codec.C173_refused",
    "Memar.Codec.C173_lost_violated",
    "Memar.Codec.C173_gunzip_violated",
    "Memar.Codec.C173_empty_partial",
    "Memar.Codec.C173_empty_uri_violated"
   ],
   "note": "Into JSON (C173_into_json_partial), from URIs (C173_from_uri_partial), codecs that cannot be changed (C173_refused), empty bodies (C173_empty_partial). Into a socket nothing ever returns (C173_into_socket_violated), into URIs and paths the contents are lost without an error (C173_lost_violated), a gzip decompressor refuses what it could take (C173_gunzip_violated), an empty URI panics (C173_empty_uri_violated)."
  },
  {
   "property": "C174",
   "status": "partial",
   "theorems": [
    "Memar.Net.Extension.C174_fields_partial",
    "Memar.Net.Extension.C174_next_partial",
    "Memar.Net.Extension.C174_next_violated",
    "Memar.Net.Extension.C174_wraps_violated",
    "Memar.Net.Extension.C174_optional_violated"
   ],
   "note": "C174_fields_partial, C174_next_partial (headers without further data). Behind every header with further data the next frame is looked for at the wrong place (C174_next_violated), the sum wraps around (C174_wraps_violated), and Optional panics or returns too little (C174_optional_violated)."
  },
  {
   "property": "C175",
   "status": "partial",
   "theorems": [
    "Memar.Timer.Queue.C175_new_tick_partial",
    "Memar.Timer.Queue.C175_failed_period_violated"
   ],
   "note": "C175_new_tick_partial. Without a callback the period is left behind (C175_failed_period_violated)."
  },
  {
   "property": "C176",
   "status": "partial",
   "theorems": [
    "Memar.Registry.Types.C176_from_text_partial",
    "Memar.Registry.Types.C176_round_trip_partial",
    "Memar.Registry.Types.C176_bad_text_violated",
    "Memar.Registry.Types.C176_parameters_violated"
   ],
   "note": "C176_from_text_partial, C176_round_trip_partial. Texts without a slash panic and leave a mixed value (C176_bad_text_violated), parameters are part of the sub type (C176_parameters_violated)."
  },
  {
   "property": "C177",
   "status": "partial",
   "theorems": [
    "Memar.Syllab.C177_bool_violated",
    "Memar.Syllab.C177_bool_partial",
    "Memar.Syllab.C177_float32_partial",
    "Memar.Syllab.C177_float64_partial",
    "Memar.Syllab.C177_float32_violated",
    "Memar.Syllab.C177_complex_violated",
    "Memar.Syllab.C177_complex_get_partial",
    "Memar.Syllab.C177_complex_byte_violated",
    "Memar.Syllab.C177_fixed_array_getter_violated",
    "Memar.Syllab.C177_fixed_array_setter"
   ],
   "note": "true round-trips, false exactly if the byte was not 1 (C177_bool_partial); floats exactly if they survive the integer conversion (C177_float32_partial, C177_float64_partial); complex numbers from their two parts (C177_complex_get_partial). Refuted: the _violated theorems."
  },
  {
   "property": "C178",
   "status": "partial",
   "theorems": [
    "Memar.Syllab.C178_short_heap_violated",
    "Memar.Syllab.C178_short_heap_any_violated",
    "Memar.Syllab.C178_room_partial"
   ],
   "note": "Refuted for every buffer that ends before the contents (C178_short_heap_any_violated): the missing bytes read as zero. Contents that fit are C04."
  },
  {
   "property": "C179",
   "status": "partial",
   "theorems": [
    "Memar.Math.C179_overflow_violated",
    "Memar.Math.C179_trillion_violated",
    "Memar.Math.C179_exact_iff_fits_partial",
    "Memar.Math.C179_overflow_wraps_violated"
   ],
   "note": "Refuted as stated; C179_exact_iff_fits_partial says exactly when the number is right."
  },
  {
   "property": "C180",
   "status": "partial",
   "theorems": [
    "Memar.Http.C180_iteration_stops_at_empty_value_violated",
    "Memar.Http.C180_empty_name_reads_empty",
    "Memar.Http.C180_walk_iff_partial",
    "Memar.Http.C180_iteration_stops_at_any_empty_value_violated",
    "Memar.Http.C180_empty_name_always_empty_violated"
   ],
   "note": "What the walk reports with an empty value among them is stated exactly in C180_iteration_stops_at_any_empty_value_violated."
  },
  {
   "property": "C181",
   "status": "partial",
   "theorems": [
    "Memar.Http.C181_malformed_query_is_identifier_zero_violated",
    "Memar.Http.C181_runs_iff_partial"
   ],
   "note": "Refuted for every such request."
  },
  {
   "property": "C182",
   "status": "partial",
   "theorems": [
    "Memar.Http.C182_output_bytes_partial",
    "Memar.Http.C182_semicolon_survives_violated",
    "Memar.Http.C182_name_separators_survive_violated",
    "Memar.Http.C182_name_any_byte_survives_violated"
   ],
   "note": "Legal bytes or semicolons in values and paths (C182_output_bytes_partial)."
  },
  {
   "property": "C183",
   "status": "partial",
   "theorems": [
    "Memar.Pool.C183_cleaned_up_stays_away_partial",
    "Memar.Pool.C183_close_race_violated",
    "Memar.Pool.C183_close_race_any_violated"
   ],
   "note": "Holds as long as Close has not been called (C183_cleaned_up_stays_away_partial)."
  },
  {
   "property": "C184",
   "status": "partial",
   "theorems": [
    "Memar.Buffer.C184_read_returns_nothing_violated",
    "Memar.Buffer.C184_read_byte_partial",
    "Memar.Buffer.C184_last_byte_unreadable_violated",
    "Memar.Buffer.C184_read_at_violated",
    "Memar.Buffer.C184_set_then_read_violated"
   ],
   "note": "ReadByte returns every byte but the last (C184_read_byte_partial)."
  },
  {
   "property": "C185",
   "status": "partial",
   "theorems": [
    "Memar.Validators.C185_checksum_odd_any_violated",
    "Memar.Validators.C185_checksum_even_partial",
    "Memar.Validators.C185_checksum_odd_violated",
    "Memar.Validators.C185_checksum_empty_violated"
   ],
   "note": "Holds for payloads of even length (C185_checksum_even_partial)."
  },
  {
   "property": "C186",
   "status": "partial",
   "theorems": [
    "Memar.Time.C186_add_moves_instant_partial",
    "Memar.Time.C186_add_not_normal_violated",
    "Memar.Time.C186_add_goes_back_violated"
   ],
   "note": "The instant moves by the duration as long as nothing overflows (C186_add_moves_instant_partial)."
  },
  {
   "property": "C187",
   "status": "partial",
   "theorems": [
    "Memar.Time.C187_before_epoch_any_violated",
    "Memar.Time.C187_hour_before_epoch_violated",
    "Memar.Time.C187_before_epoch_violated",
    "Memar.Time.C187_hour_bit_partial",
    "Memar.Time.C187_hour_constants_violated"
   ],
   "note": "The hour bit at or after the epoch: C187_hour_bit_partial."
  },
  {
   "property": "C188",
   "status": "partial",
   "theorems": [
    "Memar.Identifier.C188_random_failure_violated",
    "Memar.Identifier.C188_incremental_violated",
    "Memar.Identifier.C188_id32_violated",
    "Memar.Identifier.C188_bad_id_text_violated",
    "Memar.Identifier.C188_id8",
    "Memar.Identifier.C188_new8_violated",
    "Memar.Identifier.C188_newHash8_violated",
    "Memar.Identifier.C188_new8_partial",
    "Memar.Identifier.C188_incremental_any_violated"
   ],
   "note": "The second of an 8-byte identifier is read back while it fits 40 bits (C188_new8_partial)."
  },
  {
   "property": "C189",
   "status": "partial",
   "theorems": [
    "Memar.Net.Tcp.C189_data_offset_accumulates",
    "Memar.Net.Tcp.C189_data_offset_partial",
    "Memar.Net.Tcp.C189_data_offset_violated",
    "Memar.Net.Tcp.C189_flag_part_one_violated"
   ],
   "note": "C189_data_offset_accumulates says exactly what is read back; on a zero offset it is the value set (C189_data_offset_partial)."
  },
  {
   "property": "C190",
   "status": "partial",
   "theorems": [
    "Memar.Net.Tcp.C190_small_offset_violated",
    "Memar.Net.Tcp.C190_options_partial",
    "Memar.Net.Tcp.C190_payload_roundtrip_partial"
   ],
   "note": "Holds for data offsets of at least 20 (C190_options_partial, C190_payload_roundtrip_partial)."
  },
  {
   "property": "C191",
   "status": "partial",
   "theorems": [
    "Memar.Net.Ipv4.C191_ipv4_short_packet_violated",
    "Memar.Net.Ipv4.C191_ipv4_options_violated",
    "Memar.Net.Ipv4.C191_ipv4_version_ihl_partial",
    "Memar.Net.Ipv4.C191_ipv4_version_violated",
    "Memar.Net.Ipv4.C191_ipv4_dscp_violated",
    "Memar.Net.Ipv4.C191_ipv4_fragment_offset_violated",
    "Memar.Net.Ipv4.C191_ipv4_fragment_flags_violated",
    "Memar.Net.Ipv4.C191_ipv4_ecn_violated",
    "Memar.Net.Ipv6.C191_ipv6_first_word_partial",
    "Memar.Net.Ipv6.C191_ipv6_version_violated",
    "Memar.Net.Ipv6.C191_ipv6_traffic_class_violated",
    "Memar.Net.Ipv6.C191_ipv6_flow_label_violated",
    "Memar.Net.Udp.C191_udp_set_length_violated",
    "Memar.Net.Udp.C191_udp_payload_violated",
    "Memar.Net.Udp.C191_udp_payload_partial",
    "Memar.Net.Gp.C191_gp_following_frame_violated"
   ],
   "note": "Setting version and length, or version, traffic class and flow label, in this order works (C191_ipv4_version_ihl_partial, C191_ipv6_first_word_partial); a payload that fits is read back (C191_udp_payload_partial)."
  },
  {
   "property": "C192",
   "status": "partial",
   "theorems": [
    "Memar.Chapar.C192_checked_panic_violated",
    "Memar.Chapar.C192_header_violated",
    "Memar.Chapar.C192_broadcast_path_violated",
    "Memar.Chapar.C192_init_broadcast_violated",
    "Memar.Chapar.C192_safe_hops_partial"
   ],
   "note": "Refuted as stated; C192_safe_hops_partial says which hops are safe."
  },
  {
   "property": "C193",
   "status": "partial",
   "theorems": [
    "Memar.Registry.Errors.C193_zero_violated",
    "Memar.Registry.Errors.C193_refused_in_dev_mode_partial"
   ],
   "note": "Refuted outside developer mode, after every history; in developer mode it holds (C41_dev_refused)."
  },
  {
   "property": "C194",
   "status": "partial",
   "theorems": [
    "Memar.Registry.Services.C194_indexes_agree_partial",
    "Memar.Registry.Services.C194_indexes_violated",
    "Memar.Registry.Services.C194_duplicate_unreported_violated",
    "Memar.Registry.Services.C194_services_list_violated"
   ],
   "note": "The indexes agree when identifiers and texts determine each other (C194_indexes_agree_partial); what the list holds is stated exactly."
  },
  {
   "property": "C195",
   "status": "partial",
   "theorems": [
    "Memar.Command.C195_empty_value_violated",
    "Memar.Command.C195_abbreviation_violated",
    "Memar.Command.C195_settable_partial"
   ],
   "note": "Refuted for every flag and every such pair of declarations."
  },
  {
   "property": "C196",
   "status": "partial",
   "theorems": [
    "Memar.Json.C196_int_partial",
    "Memar.Json.C196_int_violated",
    "Memar.Json.C196_quote_violated",
    "Memar.Json.C196_encode_empty_violated",
    "Memar.Json.C196_decode_empty_violated",
    "Memar.Json.C196_min_empty_violated",
    "Memar.Json.C196_stale_token_violated",
    "Memar.Json.C196_list32_minified_violated",
    "Memar.Json.C196_list32_minified_partial",
    "Memar.Json.C196_unknown_member",
    "Memar.Json.C196_unknown_member_violated",
    "Memar.Json.C196_unknown_member_cut_violated",
    "Memar.Json.C196_list32_cut_off_violated"
   ],
   "note": "Numbers from 0 up (C196_int_partial), minified lists of 32-byte values in another layout (C196_list32_minified_partial), unknown members without brackets (C196_unknown_member)."
  },
  {
   "property": "C197",
   "status": "partial",
   "theorems": [
    "Memar.Www.C197_html_partial",
    "Memar.Www.C197_html_violated",
    "Memar.Www.C197_panic_violated"
   ],
   "note": "C197_html_partial says exactly what the page becomes."
  },
  {
   "property": "C198",
   "status": "partial",
   "theorems": [
    "Memar.Math.C198_signed_violated",
    "Memar.Math.C198_same_value_partial"
   ],
   "note": "Refuted at every width."
  },
  {
   "property": "C199",
   "status": "proved",
   "theorems": [
    "Memar.Http.C199_content_type_parts",
    "Memar.Http.C199_content_type_values"
   ],
   "note": ""
  },
  {
   "property": "C200",
   "status": "partial",
   "theorems": [
    "Memar.Timer.Queue.C200_failed_tick_inert_partial",
    "Memar.Timer.Queue.C200_failed_tick_any_violated",
    "Memar.Timer.Queue.C200_failed_tick_violated"
   ],
   "note": "Refuted in every queue (C200_failed_tick_any_violated)."
  },
  {
   "property": "C201",
   "status": "partial",
   "theorems": [
    "Memar.Pool.C201_idle_item_withheld_violated",
    "Memar.Pool.C201_get_available_partial",
    "Memar.Pool.C201_idle_item_withheld_any_violated"
   ],
   "note": "Get returns the hot item or the most recent idle one (C201_get_available_partial)."
  },
  {
   "property": "C202",
   "status": "partial",
   "theorems": [
    "Memar.Buffer.C202_grow_len_partial",
    "Memar.Buffer.C202_grow_len_nil_violated",
    "Memar.Buffer.C202_grow_len_stale_violated",
    "Memar.Buffer.C202_grow_len_zeros_partial"
   ],
   "note": "On a buffer that is not nil the length and the content are right (C202_grow_len_partial); the new bytes are zero when the array behind the content is (C202_grow_len_zeros_partial)."
  },
  {
   "property": "C203",
   "status": "partial",
   "theorems": [
    "Memar.Net.Ipv6Addr.C203_text_violated",
    "Memar.Net.Ipv6Addr.C203_unspecified_violated",
    "Memar.Net.Ipv6Addr.C203_short_text_violated",
    "Memar.Net.Ipv6Addr.C203_unspecified_partial"
   ],
   "note": "Refuted for all addresses; what short texts do is stated exactly."
  },
  {
   "property": "C204",
   "status": "partial",
   "theorems": [
    "Memar.Chapar.C204_alternative_lost_violated",
    "Memar.Chapar.C204_path_from_peer_violated",
    "Memar.Chapar.C204_write_frame_violated",
    "Memar.Chapar.C204_change_path_partial",
    "Memar.Chapar.C204_change_path_violated"
   ],
   "note": "Refuted for all frames and connections: the header is taken for a part of the path, and the chosen alternative is overwritten and lost (C204_alternative_lost_violated, on every connection made of a frame). Proved: the path that was in use is kept among the alternatives, and a number no alternative has panics."
  },
  {
   "property": "C205",
   "status": "partial",
   "theorems": [
    "Memar.Command.Cmd.C205_help_violated",
    "Memar.Command.C205_help_by_word_partial"
   ],
   "note": "Refuted: see C205_help_violated."
  },
  {
   "property": "C206",
   "status": "partial",
   "theorems": [
    "Memar.File.C206_codec_violated",
    "Memar.File.C206_unmarshal_partial",
    "Memar.File.C206_name_partial",
    "Memar.File.C206_dot_violated",
    "Memar.File.C206_unmarshal_violated",
    "Memar.File.C206_is_directory_violated",
    "Memar.File.C206_parts_partial",
    "Memar.File.C206_parts_violated",
    "Memar.File.C206_parts_exact_violated"
   ],
   "note": "C206_name_partial, C206_parts_partial (no double slash), C206_unmarshal_partial."
  },
  {
   "property": "C207",
   "status": "partial",
   "theorems": [
    "Memar.File.C207_bare_name_violated",
    "Memar.File.C207_above_root_violated",
    "Memar.File.C207_up_partial"
   ],
   "note": "Refuted for all trees."
  },
  {
   "property": "C208",
   "status": "partial",
   "theorems": [
    "Memar.Www.C208_order_exact_violated",
    "Memar.Www.C208_first_line_violated",
    "Memar.Www.C208_order_violated",
    "Memar.Www.C208_order_partial",
    "Memar.Www.C208_recursive_violated"
   ],
   "note": "The order holds when no module is collected twice (C208_order_partial)."
  },
  {
   "property": "C209",
   "status": "partial",
   "theorems": [
    "Memar.Www.C209_html_template_violated",
    "Memar.Www.C209_html_js_violated",
    "Memar.Www.C209_html_dropped_violated",
    "Memar.Www.C209_locale_partial"
   ],
   "note": "C209_locale_partial says what the combined script holds."
  },
  {
   "property": "C210",
   "status": "partial",
   "theorems": [
    "Memar.Tcp.C210_probe_limit_violated",
    "Memar.Tcp.C210_late_violated",
    "Memar.Tcp.C210_user_timeout_violated",
    "Memar.Tcp.C210_probes_partial"
   ],
   "note": "Refuted for all histories of due checks; what one check does is C92."
  },
  {
   "property": "C211",
   "status": "partial",
   "theorems": [
    "Memar.Pool.C211_refused_init_revives_violated",
    "Memar.Pool.C211_refused_close_kills_violated",
    "Memar.Pool.C211_refusal_violated",
    "Memar.Pool.C211_refusal_keeps_items_partial"
   ],
   "note": "Everything but the state is kept (C211_refusal_keeps_items_partial)."
  },
  {
   "property": "C212",
   "status": "partial",
   "theorems": [
    "Memar.Uri.C212_panics_iff_partial",
    "Memar.Uri.C212_trailing_colon_violated"
   ],
   "note": "Exactly when it panics: C212_panics_iff_partial."
  },
  {
   "property": "C213",
   "status": "partial",
   "theorems": [
    "Memar.Uri.C213_semicolon_any_violated",
    "Memar.Uri.C213_all_good_partial",
    "Memar.Uri.C213_colon_refused_violated",
    "Memar.Uri.C213_semicolon_accepted_violated",
    "Memar.Uri.C213_first_error_violated"
   ],
   "note": "Queries whose settings are well-formed and have no colon: C213_all_good_partial."
  },
  {
   "property": "C214",
   "status": "partial",
   "theorems": [
    "Memar.Uri.C214_initialised_partial",
    "Memar.Uri.C214_zero_query_violated"
   ],
   "note": "Refuted for all keys and values."
  },
  {
   "property": "C215",
   "status": "partial",
   "theorems": [
    "Memar.Http.C215_zero_age_violated",
    "Memar.Http.C215_positive_age_partial"
   ],
   "note": "Refuted for every cookie."
  },
  {
   "property": "C216",
   "status": "partial",
   "theorems": [
    "Memar.Http.C216_second_redirect_violated",
    "Memar.Http.C216_error_text",
    "Memar.Http.C216_error_never_read_back_violated",
    "Memar.Http.C216_decimal_error_read_partial"
   ],
   "note": "A decimal Error-ID line is read (C216_decimal_error_read_partial); what is written is C216_error_text."
  },
  {
   "property": "C217",
   "status": "partial",
   "theorems": [
    "Memar.Http.C217_empty_response_chunked_violated",
    "Memar.Http.C217_double_length_violated",
    "Memar.Http.C217_stated_once_partial"
   ],
   "note": "Refuted for every response; what is sent is C107_sent_response."
  },
  {
   "property": "C218",
   "status": "partial",
   "theorems": [
    "Memar.Convert.C218_string_immutable_violated",
    "Memar.Convert.C218_kept_iff_partial"
   ],
   "note": "Refuted for every string and every different byte stored."
  },
  {
   "property": "C219",
   "status": "partial",
   "theorems": [
    "Memar.Os.C219_paging_violated",
    "Memar.Os.C219_page_of_all_partial"
   ],
   "note": "Refuted for all offsets and limits."
  },
  {
   "property": "C220",
   "status": "partial",
   "theorems": [
    "Memar.Os.C220_append_prepend_partial",
    "Memar.Os.C220_append_lost_violated",
    "Memar.Os.C220_save_once_partial",
    "Memar.Os.C220_save_path_violated",
    "Memar.Os.C220_compress_type_violated",
    "Memar.Os.C220_delete_file_partial"
   ],
   "note": "C220_append_prepend_partial (content set), C220_save_once_partial, C220_delete_file_partial."
  },
  {
   "property": "C221",
   "status": "partial",
   "theorems": [
    "Memar.Net.Socket.C221_timeout_ignored_violated",
    "Memar.Net.Socket.C221_send_never_returns_violated",
    "Memar.Net.Socket.C221_send_nothing_partial",
    "Memar.Net.Socket.C221_close_violated",
    "Memar.Net.Socket.C221_std_write_violated"
   ],
   "note": "Sending nothing returns (C221_send_nothing_partial)."
  },
  {
   "property": "C222",
   "status": "partial",
   "theorems": [
    "Memar.App.C222_change_dropped_violated",
    "Memar.App.C222_never_stops_violated",
    "Memar.App.C222_init_error_dropped_violated",
    "Memar.App.C222_init_partial",
    "Memar.App.C222_stop_on_signal_partial",
    "Memar.App.C222_stop_announced_twice_violated"
   ],
   "note": "C222_init_partial; an application in the running state, which the code never reaches, stops on the four signals (C222_stop_on_signal_partial)."
  },
  {
   "property": "C223",
   "status": "partial",
   "theorems": [
    "Memar.App.C223_change_missed_violated",
    "Memar.App.C223_always_awaited_partial"
   ],
   "note": "What watchers are told is C121_told."
  },
  {
   "property": "C224",
   "status": "partial",
   "theorems": [
    "Memar.Time.C224_by_nano_whole_partial",
    "Memar.Time.C224_by_nano_first_second_partial",
    "Memar.Time.C224_by_nano_short_violated",
    "Memar.Time.C224_by_nano_mixed_violated",
    "Memar.Time.C224_since_violated"
   ],
   "note": "Whole seconds, and times within the first second: C224_by_nano_whole_partial, C224_by_nano_first_second_partial."
  },
  {
   "property": "C225",
   "status": "partial",
   "theorems": [
    "Memar.Time.C225_single_days_partial",
    "Memar.Time.C225_sets_unnamed_violated"
   ],
   "note": "Refuted for every set that is not a single day."
  },
  {
   "property": "C226",
   "status": "partial",
   "theorems": [
    "Memar.Syllab.Gen.C226_left_out_violated",
    "Memar.Syllab.Gen.C226_embedded_violated",
    "Memar.Syllab.Gen.C226_array_length_violated",
    "Memar.Syllab.Gen.C226_one_call_each_partial"
   ],
   "note": "Refuted for every struct type with such a field."
  },
  {
   "property": "C227",
   "status": "partial",
   "theorems": [
    "Memar.Www.Assets.C227_no_error_partial",
    "Memar.Www.Assets.C227_unreported_violated"
   ],
   "note": "With known encodings only there is no error (C227_no_error_partial)."
  },
  {
   "property": "C228",
   "status": "partial",
   "theorems": [
    "Memar.GoParser.C228_test_files_violated",
    "Memar.GoParser.C228_recursive_violated",
    "Memar.GoParser.C228_unnamed_violated",
    "Memar.GoParser.C228_groups_violated",
    "Memar.GoParser.C228_results_violated",
    "Memar.GoParser.C228_methods_violated",
    "Memar.GoParser.C228_parsed_iff_partial"
   ],
   "note": "Refuted as stated; C228_parsed_iff_partial says exactly which inputs are parsed."
  },
  {
   "property": "C229",
   "status": "partial",
   "theorems": [
    "Memar.Net.Extension.C229_signature_id_violated",
    "Memar.Net.Frames.C229_data_partial",
    "Memar.Net.Frames.C229_offset_violated",
    "Memar.Net.Frames.C229_data_lost_violated",
    "Memar.Net.Frames.C229_open_violated",
    "Memar.Net.Frames.C229_open_next_violated",
    "Memar.Net.Frames.C229_open_partial",
    "Memar.Net.Frames.C229_signature_violated",
    "Memar.Net.Frames.C229_short_length_violated",
    "Memar.Net.Extension.C229_data_signature_violated",
    "Memar.Net.Frames.C229_open_compress"
   ],
   "note": "C229_data_partial, C229_open_partial, C229_open_compress."
  },
  {
   "property": "C230",
   "status": "partial",
   "theorems": [
    "Memar.Http.C230_reset_keeps_lines_violated",
    "Memar.Http.C230_reused_request_loses_its_uri_violated",
    "Memar.Http.C230_no_body_is_empty_partial",
    "Memar.Http.C230_no_body_drops_data_violated"
   ],
   "note": "C230_no_body_is_empty_partial."
  },
  {
   "property": "C231",
   "status": "partial",
   "theorems": [
    "Memar.Json.C231_decode_count_violated",
    "Memar.Json.C231_read_from_violated",
    "Memar.Json.C231_write_error_violated",
    "Memar.Json.C231_array_length_violated",
    "Memar.Json.C231_float_partial",
    "Memar.Json.C231_float_sign_violated"
   ],
   "note": "From the first digit on floats are read whole (C231_float_partial)."
  },
  {
   "property": "C232",
   "status": "partial",
   "theorems": [
    "Memar.Timer.Queue.C232_move_armed_violated",
    "Memar.Timer.Queue.C232_move_to_itself_violated",
    "Memar.Timer.Queue.C232_reinit_partial",
    "Memar.Timer.Queue.C232_move_stopped_violated"
   ],
   "note": "Without armed timers emptying returns an empty queue (C232_reinit_partial)."
  },
  {
   "property": "C233",
   "status": "partial",
   "theorems": [
    "Memar.Timer.Queue.C233_deinit_twice_violated",
    "Memar.Timer.Queue.C233_deinit_after_firing_violated",
    "Memar.Timer.Queue.C233_deinit_partial",
    "Memar.Timer.Queue.C233_restart_violated",
    "Memar.Timer.Queue.C233_reset_after_reinit_violated",
    "Memar.Timer.Queue.C233_reinit_idle_violated"
   ],
   "note": "Taking down a started timer: C233_deinit_partial."
  },
  {
   "property": "C234",
   "status": "partial",
   "theorems": [
    "Memar.Minify.C234_words_joined_violated",
    "Memar.Minify.C234_idempotent_violated",
    "Memar.Minify.C234_error_dropped_violated",
    "Memar.Minify.C234_css_lost_violated",
    "Memar.Minify.C234_one_line_partial",
    "Memar.Minify.C234_rejected_kept_partial"
   ],
   "note": "Only refutations; what minifying does is C145."
  },
  {
   "property": "C235",
   "status": "partial",
   "theorems": [
    "Memar.Command.C235_nflag_violated",
    "Memar.Command.C235_root_violated",
    "Memar.Command.C235_all_set_partial"
   ],
   "note": "Refuted for all flags and commands."
  },
  {
   "property": "C236",
   "status": "partial",
   "theorems": [
    "Memar.Timer.Queue.C236_next_violated",
    "Memar.Timer.Queue.C236_next_stopped_violated",
    "Memar.Timer.Queue.C236_next_partial",
    "Memar.Timer.Queue.C236_next_exact_partial",
    "Memar.Timer.Queue.C236_loop_idle_violated",
    "Memar.Timer.Queue.C236_loop_new_timer_violated",
    "Memar.Timer.Queue.C236_loop_on_time_partial",
    "Memar.Timer.Queue.C236_tick_on_time_partial",
    "Memar.Timer.Queue.C236_tick_late_violated",
    "Memar.Timer.Queue.C236_tick_very_late_violated"
   ],
   "note": "Without resets and periodic timers the answer is right (C236_next_partial, C236_next_exact_partial), and the loop is on time (C236_loop_on_time_partial, C236_tick_on_time_partial)."
  },
  {
   "property": "C237",
   "status": "partial",
   "theorems": [
    "Memar.Timer.WheelStop.C237_stop_busy_violated",
    "Memar.Timer.WheelStop.C237_stop_late_tick_violated",
    "Memar.Timer.WheelStop.C237_stop_last_partial",
    "Memar.Timer.WheelStop.C237_stop_before_start_violated",
    "Memar.Timer.WheelStop.C237_restart_violated",
    "Memar.Timer.WheelStop.C237_stop_twice_violated"
   ],
   "note": "After a stop at most one more tick is served (C237_stop_last_partial)."
  },
  {
   "property": "C238",
   "status": "partial",
   "theorems": [
    "Memar.Identifier.C238_read_violated",
    "Memar.Identifier.C238_random_failure_violated",
    "Memar.Identifier.C238_v5_violated",
    "Memar.Identifier.C238_v1_violated",
    "Memar.Identifier.C238_same_value_partial",
    "Memar.Identifier.C238_nil_violated"
   ],
   "note": "Refuted for all inputs."
  },
  {
   "property": "C239",
   "status": "partial",
   "theorems": [
    "Memar.Time.Earth.C239_short_partial",
    "Memar.Time.Earth.C239_nano_violated",
    "Memar.Time.Earth.C239_nano_wrong_violated"
   ],
   "note": "Refuted for every duration of at least a minute of seconds."
  },
  {
   "property": "C240",
   "status": "partial",
   "theorems": [
    "Memar.Uri.C240_unchanged_partial",
    "Memar.Uri.C240_set_violated",
    "Memar.Uri.C240_decode_violated"
   ],
   "note": "Refuted for all texts."
  },
  {
   "property": "C241",
   "status": "partial",
   "theorems": [
    "Memar.Http.C241_two_lengths_violated",
    "Memar.Http.C241_bad_length_violated",
    "Memar.Http.C241_large_length_violated",
    "Memar.Http.C241_cookies_partial",
    "Memar.Http.C241_last_coding_partial",
    "Memar.Http.C241_bad_expire_violated"
   ],
   "note": "All cookies but the last (C241_cookies_partial), the last coding of a list with a comma (C241_last_coding_partial)."
  },
  {
   "property": "C242",
   "status": "partial",
   "theorems": [
    "Memar.Registry.Types.C242_media_lookups_partial",
    "Memar.Registry.Types.C242_media_not_found_violated",
    "Memar.Registry.Types.C242_listed_twice_violated"
   ],
   "note": "What is there is found (C242_media_lookups_partial)."
  },
  {
   "property": "C243",
   "status": "partial",
   "theorems": [
    "Memar.Math.C243_equal_sizes_violated",
    "Memar.Math.C243_equal_signed_partial",
    "Memar.Math.C243_nan_violated",
    "Memar.Math.C243_unknown_base_violated",
    "Memar.Math.C243_float_error_violated"
   ],
   "note": "Of one size, integers of chosen size are equal exactly when the numbers are (C243_equal_signed_partial)."
  },
  {
   "property": "C244",
   "status": "partial",
   "theorems": [
    "Memar.Json.C244_byte_order_violated",
    "Memar.Json.C244_not_numbers_violated",
    "Memar.Json.C244_len_partial",
    "Memar.Json.C244_len_violated"
   ],
   "note": "The length is right until the object changes (C244_len_partial)."
  },
  {
   "property": "C245",
   "status": "partial",
   "theorems": [
    "Memar.Www.C245_rounds_partial",
    "Memar.Www.C245_short_language_violated",
    "Memar.Www.C245_plain_file_violated",
    "Memar.Www.C245_no_texts_violated",
    "Memar.Www.C245_reload_end_violated"
   ],
   "note": "Refuted for all pages, files and inputs."
  },
  {
   "property": "C246",
   "status": "partial",
   "theorems": [
    "Memar.Compress.C246_gzip_accepts_violated",
    "Memar.Compress.C246_chain_gzip_error_violated",
    "Memar.Compress.C246_refused_iff_partial",
    "Memar.Compress.C246_failing_source_partial"
   ],
   "note": "Refuted for all contents."
  },
  {
   "property": "C247",
   "status": "partial",
   "theorems": [
    "Memar.Time.C247_local_epoch_violated",
    "Memar.Time.C247_since_unix_epoch_partial",
    "Memar.Time.C247_calendar_year_violated",
    "Memar.Time.C247_epoch_violated",
    "Memar.Time.C247_local_violated"
   ],
   "note": "Refuted for all times."
  },
  {
   "property": "C248",
   "status": "partial",
   "theorems": [
    "Memar.Time.C248_alone_partial",
    "Memar.Time.C248_read_store_violated"
   ],
   "note": "Refuted for all values."
  },
  {
   "property": "C249",
   "status": "partial",
   "theorems": [
    "Memar.Http.C249_empty_value_lost_violated",
    "Memar.Http.C249_walk_reports_all_but_last_partial",
    "Memar.Http.C249_last_cookie_lost_violated",
    "Memar.Http.C249_hostile_line_panics_violated",
    "Memar.Http.C249_addCookie_always_panics_violated",
    "Memar.Http.C249_walk_panics_exactly_violated"
   ],
   "note": "Every cookie but the last is reported (C249_walk_reports_all_but_last_partial)."
  },
  {
   "property": "C250",
   "status": "partial",
   "theorems": [
    "Memar.Tcp.C250_enable_partial",
    "Memar.Tcp.C250_durations_violated",
    "Memar.Tcp.C250_close_sending_violated"
   ],
   "note": "Whether the keep alive is on is what was set last (C250_enable_partial)."
  },
  {
   "property": "C251",
   "status": "partial",
   "theorems": [
    "Memar.Uri.C251_host_exact_violated",
    "Memar.Uri.C251_roundtrip_partial",
    "Memar.Uri.C251_host_violated"
   ],
   "note": "Exactly the names of literal bytes survive (C251_roundtrip_partial)."
  },
  {
   "property": "C252",
   "status": "partial",
   "theorems": [
    "Memar.Http.C252_numeric_domain_redirects_to_itself_violated",
    "Memar.Http.C252_passes_iff_partial"
   ],
   "note": "Other domains pass: C15_own_domain_passes."
  },
  {
   "property": "C253",
   "status": "partial",
   "theorems": [
    "Memar.Time.C253_fits_partial",
    "Memar.Time.C253_overflow_any_violated",
    "Memar.Time.C253_overflow_violated"
   ],
   "note": "Exactly those that fit are combined rightly (C253_overflow_any_violated)."
  },
  {
   "property": "C254",
   "status": "partial",
   "theorems": [
    "Memar.Identifier.Rfc4122.C254_parse_violated",
    "Memar.Identifier.Rfc4122.C254_parse_canonical_violated",
    "Memar.Identifier.Rfc4122.C254_parse_short_violated",
    "Memar.Identifier.Rfc4122.C254_utility_parse_violated",
    "Memar.Identifier.Rfc4122.C254_parse_exact_partial"
   ],
   "note": "Refuted for all texts."
  },
  {
   "property": "C255",
   "status": "partial",
   "theorems": [
    "Memar.Net.Ipv4Addr.C255_trailing_text_violated",
    "Memar.Net.Ipv4Addr.C255_bad_text_violated",
    "Memar.Net.Ipv4Addr.C255_octets_partial",
    "Memar.Net.Ipv4Addr.C255_bad_text_any_violated"
   ],
   "note": "Refuted for all texts of these kinds."
  },
  {
   "property": "C256",
   "status": "partial",
   "theorems": [
    "Memar.Event.C256_reentrant_violated",
    "Memar.Event.C256_stuck_iff_partial"
   ],
   "note": "Refuted for every operation and schedule."
  },
  {
   "property": "C257",
   "status": "partial",
   "theorems": [
    "Memar.Http.C257_pragma_idempotent_partial",
    "Memar.Http.C257_empty_cache_control_violated"
   ],
   "note": "Otherwise twice is once (C257_pragma_idempotent_partial)."
  },
  {
   "property": "C258",
   "status": "partial",
   "theorems": [
    "Memar.Os.C258_order_violated",
    "Memar.Os.C258_same_size_partial",
    "Memar.Os.C258_outside_violated",
    "Memar.Os.C258_order_any_violated"
   ],
   "note": "Refuted for all pairs of places last first and all single places outside."
  },
  {
   "property": "C259",
   "status": "partial",
   "theorems": [
    "Memar.Http.C259_sorted_by_quality_partial",
    "Memar.Http.C259_any_parameter_is_quality_violated",
    "Memar.Http.C259_non_numeric_parameter_drops_media_violated",
    "Memar.Http.C259_absent_header_violated"
   ],
   "note": "Permutation, order and stability are proved for every header of elements with at most one parameter (C259_sorted_by_quality_partial)."
  },
  {
   "property": "C260",
   "status": "partial",
   "theorems": [
    "Memar.Http.C260_host_line_not_parsed_violated",
    "Memar.Http.C260_named_in_target_partial"
   ],
   "note": "Refuted for every request without an authority in the target."
  },
  {
   "property": "C261",
   "status": "partial",
   "theorems": [
    "Memar.Http.C261_bidirectional_partial",
    "Memar.Http.C261_unidirectional_partial",
    "Memar.Http.C261_timeout_returns_nothing_violated",
    "Memar.Http.C261_unsent_reported_as_sent_violated",
    "Memar.Http.C261_stream_leaked_violated",
    "Memar.Http.C261_srpc_partial",
    "Memar.Http.C261_srpc_one_way_partial",
    "Memar.Http.C261_srpc_one_way_unsent_violated"
   ],
   "note": "The outcome for every sequence of states is C261_bidirectional_partial, C261_unidirectional_partial and C261_srpc_partial."
  },
  {
   "property": "C262",
   "status": "partial",
   "theorems": [
    "Memar.Os.C262_nested_file_violated",
    "Memar.Os.C262_one_directory_violated",
    "Memar.Os.C262_plain_name_partial",
    "Memar.Os.C262_slash_violated"
   ],
   "note": "A name without a slash finds the file of the directory (C262_plain_name_partial)."
  },
  {
   "property": "C263",
   "status": "partial",
   "theorems": [
    "Memar.Net.Socket.C263_read_write_swapped_violated",
    "Memar.Net.Socket.C263_set_both_partial",
    "Memar.Net.Socket.C263_earlier_partial",
    "Memar.Net.Socket.C263_extended_never_fires_violated",
    "Memar.Net.Socket.C263_not_armed_violated",
    "Memar.Net.Socket.C263_no_timeout_violated",
    "Memar.Net.Socket.C263_write_named_read_violated",
    "Memar.Net.Socket.C263_announced_partial",
    "Memar.Net.Socket.C263_no_limit_stops_partial"
   ],
   "note": "Both limits at once (C263_set_both_partial), earlier limits (C263_earlier_partial), what is announced (C263_announced_partial) and taking a limit away when the other is not set (C263_no_limit_stops_partial)."
  },
  {
   "property": "C264",
   "status": "partial",
   "theorems": [
    "Memar.Syllab.Gen.C264_own_code_partial",
    "Memar.Syllab.Gen.C264_receiver_name_violated",
    "Memar.Syllab.Gen.C264_order_violated",
    "Memar.Syllab.Gen.C264_value_receiver_violated"
   ],
   "note": "Exact for files with types first and distinct receiver names (C264_own_code_partial)."
  },
  {
   "property": "C265",
   "status": "partial",
   "theorems": [
    "Memar.Compress.C265_roundtrip_partial",
    "Memar.Compress.C265_damaged_violated",
    "Memar.Compress.C265_not_gzip_violated",
    "Memar.Compress.C265_unmarshal_violated",
    "Memar.Compress.C265_gzip_stream_partial",
    "Memar.Compress.C265_gzip_write_violated",
    "Memar.Compress.C265_unmarshal_stream_partial",
    "Memar.Compress.C265_stream_once",
    "Memar.Compress.C265_read_count_violated",
    "Memar.Compress.C265_gzip_error_violated"
   ],
   "note": "Round trip for every history given the library's own (C265_roundtrip_partial); C265_gzip_stream_partial."
  },
  {
   "property": "C266",
   "status": "partial",
   "theorems": [
    "Memar.Log.C266_recover_partial",
    "Memar.Log.C266_helpers_partial",
    "Memar.Log.C266_fatal_partial",
    "Memar.Log.C266_listener_violated",
    "Memar.Log.C266_method_violated",
    "Memar.Log.C266_time_violated",
    "Memar.Log.C266_nil_event_violated"
   ],
   "note": "Proved where no listener and no method of the value panics (C266_recover_partial, C266_helpers_partial, C266_fatal_partial)."
  },
  {
   "property": "C267",
   "status": "partial",
   "theorems": [
    "Memar.Chapar.C267_route_partial",
    "Memar.Chapar.C267_never_leaves_violated",
    "Memar.Chapar.C267_fresh_violated",
    "Memar.Chapar.C267_endless_violated",
    "Memar.Chapar.C267_fresh_send_violated",
    "Memar.Chapar.C267_bridge_partial",
    "Memar.Chapar.C267_bridge_deliver_partial",
    "Memar.Chapar.C267_bridge_last_violated",
    "Memar.Chapar.C267_broadcast_violated",
    "Memar.Chapar.C267_broadcast_endless_violated",
    "Memar.Chapar.C267_short_send_violated"
   ],
   "note": "Routes whose ports call the next switch (C267_route_partial), bridges with a hop to spare (C267_bridge_partial)."
  },
  {
   "property": "C268",
   "status": "partial",
   "theorems": [
    "Memar.Tcp.C268_close_always_fails_violated",
    "Memar.Tcp.C268_close_with_running_timer_partial",
    "Memar.Tcp.C268_reset_does_nothing_violated",
    "Memar.Tcp.C268_init_keeps_retries_violated",
    "Memar.Tcp.C268_reset_alone_probes_at_once_violated",
    "Memar.Tcp.C268_timing_reset_violated"
   ],
   "note": "With a running timer closing works (C268_close_with_running_timer_partial)."
  },
  {
   "property": "C269",
   "status": "partial",
   "theorems": [
    "Memar.Gui.C269_chosen_name_partial",
    "Memar.Gui.C269_default_name_partial",
    "Memar.Gui.C269_hyphen_violated",
    "Memar.Gui.C269_chosen_name_violated",
    "Memar.Gui.C269_fields_partial",
    "Memar.Gui.C269_urn_partial",
    "Memar.Gui.C269_quote_violated",
    "Memar.Gui.C269_reused_request_violated",
    "Memar.Gui.C269_splash_partial",
    "Memar.Gui.C269_splash_lost_violated"
   ],
   "note": "Names of name characters and scopes of one word (C269_chosen_name_partial, C269_default_name_partial), fields without quote, backslash or line end (C269_fields_partial, C269_urn_partial), three different files of one directory (C269_splash_partial)."
  },
  {
   "property": "C270",
   "status": "partial",
   "theorems": [
    "Memar.Net.Gp.C270_lookup_partial",
    "Memar.Net.Gp.C270_payload_violated",
    "Memar.Net.Gp.C270_bad_type_violated",
    "Memar.Net.Gp.C270_panic_violated",
    "Memar.Net.Gp.C270_write_violated"
   ],
   "note": "The lookup is right (C270_lookup_partial)."
  },
  {
   "property": "C271",
   "status": "partial",
   "theorems": [
    "Memar.Tcp.OverIp.C271_known_partial",
    "Memar.Tcp.OverIp.C271_new_violated",
    "Memar.Tcp.OverIp.C271_grows_violated",
    "Memar.Tcp.OverIp.C271_short_violated",
    "Memar.Tcp.OverIp.C271_malformed_partial"
   ],
   "note": "Known connections (C271_known_partial) and malformed segments of four bytes or more (C271_malformed_partial)."
  },
  {
   "property": "C272",
   "status": "partial",
   "theorems": [
    "Memar.Tcp.C272_in_order_partial",
    "Memar.Tcp.C272_counted_per_segment_partial",
    "Memar.Tcp.C272_following_segment_violated",
    "Memar.Tcp.C272_empty_segment_violated",
    "Memar.Tcp.C272_passive_open_violated",
    "Memar.Tcp.C272_initial_number_violated",
    "Memar.Tcp.C272_never_closes_violated"
   ],
   "note": "One-byte segments are delivered in order (C272_in_order_partial, C272_counted_per_segment_partial)."
  },
  {
   "property": "C273",
   "status": "proved",
   "theorems": [
    "Memar.Os.C273_listed",
    "Memar.Os.C273_asked_once"
   ],
   "note": "The operating system is a parameter; a disk that changes after the start is not looked at again, which is what the code does."
  },
  {
   "property": "C274",
   "status": "partial",
   "theorems": [
    "Memar.Timer.Queue.C274_start_fails_violated",
    "Memar.Timer.Queue.C274_start_exact_partial",
    "Memar.Timer.Queue.C274_start_returns_partial",
    "Memar.Timer.Queue.C274_start_after_all_stopped_violated",
    "Memar.Timer.Queue.C274_start_after_reset_violated",
    "Memar.Timer.Queue.C274_start_violated"
   ],
   "note": "Starting deadlocks or panics exactly in the queues of C274_start_fails_violated; it returns in those of C274_start_returns_partial and C274_start_exact_partial."
  },
  {
   "property": "C275",
   "status": "partial",
   "theorems": [
    "Memar.Net.Frames.C275_unknown_violated",
    "Memar.Net.Frames.C275_zero_length_violated",
    "Memar.Net.Frames.C275_error_violated",
    "Memar.Net.Frames.C275_terminates_partial",
    "Memar.Net.Frames.C275_in_order_partial",
    "Memar.Net.Frames.C275_gp_violated",
    "Memar.Net.Frames.C275_chapar_violated"
   ],
   "note": "Order and a dichotomy between ending and hanging for all packets (C275_in_order_partial, C275_terminates_partial)."
  },
  {
   "property": "C276",
   "status": "partial",
   "theorems": [
    "Memar.Timer.Queue.C276_limit_on_the_queue_partial",
    "Memar.Timer.Ticker.C276_limit_exceeded_violated",
    "Memar.Timer.Ticker.C276_limit_and_remaining_partial"
   ],
   "note": "n+1 firings, refuted for every n; the countdown is C276_limit_and_remaining_partial; on a queue with other timers and callbacks C276_limit_on_the_queue_partial."
  },
  {
   "property": "C277",
   "status": "partial",
   "theorems": [
    "Memar.Time.C277_swap_words_partial",
    "Memar.Time.C277_mixed_swap_violated",
    "Memar.Time.C277_add_partial",
    "Memar.Time.C277_failed_cas_changes_violated",
    "Memar.Time.C277_cas_partial",
    "Memar.Time.C277_torn_load_violated",
    "Memar.Time.C277_mixed_store_violated",
    "Memar.Time.C277_store_load_partial"
   ],
   "note": "Refuted for all times; compare-and-swap and adding without others are C277_cas_partial and C277_add_partial."
  },
  {
   "property": "C278",
   "status": "partial",
   "theorems": [
    "Memar.Json.C278_hang_violated",
    "Memar.Json.C278_bool_panic_violated",
    "Memar.Json.C278_minified_string_cut_violated",
    "Memar.Json.C278_string_panic_exact_violated",
    "Memar.Json.C278_null_anywhere_violated",
    "Memar.Json.C278_list_returns_iff_partial",
    "Memar.Json.C278_others_stop_partial",
    "Memar.Json.C278_panics_iff_partial"
   ],
   "note": "Refuted; the calls that return are C86."
  },
  {
   "property": "C279",
   "status": "partial",
   "theorems": [
    "Memar.Http.C279_absent_content_type_panics_violated",
    "Memar.Http.C279_subtype_needs_semicolon_violated",
    "Memar.Http.C279_short_parameter_panics_violated",
    "Memar.Http.C279_second_parameter_violated",
    "Memar.Http.C279_type_alone_partial",
    "Memar.Http.C279_short_parameter_any_violated",
    "Memar.Http.C279_short_text_any_violated"
   ],
   "note": "Refuted, exactly for which texts."
  },
  {
   "property": "C280",
   "status": "proved",
   "theorems": [
    "Memar.Chapar.C280_set_get",
    "Memar.Chapar.C280_marshal",
    "Memar.Chapar.C280_frame_round_trip"
   ],
   "note": ""
  },
  {
   "property": "C281",
   "status": "partial",
   "theorems": [
    "Memar.Chapar.C281_kept_iff_partial",
    "Memar.Chapar.C281_long_violated",
    "Memar.Chapar.C281_empty_violated",
    "Memar.Chapar.C281_cut_violated",
    "Memar.Chapar.C281_far_violated"
   ],
   "note": "Refuted for all paths of more than 255 hops, all frames that are too short and all frames of 253 or more hops; the paths that are kept are C280."
  },
  {
   "property": "C282",
   "status": "partial",
   "theorems": [
    "Memar.Os.C282_made_partial",
    "Memar.Os.C282_rename_violated"
   ],
   "note": "Holds when a file is made (C282_made_partial); a renamed file keeps the media type of its old name (C282_rename_violated)."
  },
  {
   "property": "C283",
   "status": "partial",
   "theorems": [
    "Memar.Timer.Ticker.C283_reinit_loses_the_limit_violated",
    "Memar.Timer.Ticker.C283_stays_limited_partial"
   ],
   "note": "Refuted: after Reinit the ticker has no limit (C283_reinit_loses_the_limit_violated); without it the limit stays (C283_stays_limited_partial)."
  },
  {
   "property": "C284",
   "status": "partial",
   "theorems": [
    "Memar.Shared.C284_only_its_room_partial",
    "Memar.Shared.C284_taken_kept_partial",
    "Memar.Shared.C284_others_kept_partial",
    "Memar.Shared.C284_reset_violated",
    "Memar.Shared.C284_taken_back_violated",
    "Memar.Shared.C284_reset_exact_partial",
    "Memar.Shared.C284_reset_moves_partial",
    "Memar.Shared.C284_behind_violated",
    "Memar.Shared.C284_store_violated",
    "Memar.Shared.C284_store_after_move_partial",
    "Memar.Shared.C284_as_if_own_partial"
   ],
   "note": "Refuted for all memories and writes that fit (C284_reset_violated and others); adding to the buffer keeps what was taken out (C284_taken_kept_partial)."
  },
  {
   "property": "C285",
   "status": "partial",
   "theorems": [
    "Memar.Shared.C285_own_contents_partial",
    "Memar.Shared.C285_prepend_twice_violated",
    "Memar.Shared.C285_copied_append_violated",
    "Memar.Shared.C285_copied_one_partial",
    "Memar.Shared.C285_replace_seen_violated",
    "Memar.Shared.C285_store_violated",
    "Memar.Shared.C285_marshal_to_partial"
   ],
   "note": "Refuted for shared slices; files with slices of their own are independent through every history (C285_own_contents_partial)."
  },
  {
   "property": "C286",
   "status": "partial",
   "theorems": [
    "Memar.Shared.C286_key_violated",
    "Memar.Shared.C286_min_key_violated",
    "Memar.Shared.C286_key_kept_partial",
    "Memar.Shared.C286_value_kept_partial",
    "Memar.Shared.C286_rest_partial",
    "Memar.Shared.C286_unsafe_value_violated",
    "Memar.Shared.C286_unsafe_value_kept_partial",
    "Memar.Shared.C286_file_address_violated",
    "Memar.Shared.C286_uri_reused_violated",
    "Memar.Shared.C286_uri_kept_partial",
    "Memar.Shared.C286_marshal_shared_violated",
    "Memar.Shared.C286_written_violated",
    "Memar.Shared.C286_written_kept_partial",
    "Memar.Shared.C286_decode_as_bytes_partial",
    "Memar.Shared.C286_encode_as_bytes_partial"
   ],
   "note": "Refuted for keys, addresses and URIs; kept while the buffer shows the same bytes, and string values are copies (C286_value_kept_partial)."
  },
  {
   "property": "C287",
   "status": "partial",
   "theorems": [
    "Memar.Shared.C287_within_partial",
    "Memar.Shared.C287_behind_violated",
    "Memar.Shared.C287_settled_exact_partial",
    "Memar.Shared.C287_append_violated",
    "Memar.Shared.C287_checked_segment_partial",
    "Memar.Shared.C287_strings_partial",
    "Memar.Shared.C287_strings_violated",
    "Memar.Shared.C287_null_partial",
    "Memar.Shared.C287_null_violated",
    "Memar.Shared.C287_items",
    "Memar.Shared.C287_items_short"
   ],
   "note": "Refuted for every getter and every message whose length field ends behind it inside the buffer (C287_behind_violated, C287_strings_violated, C287_null_violated); exactly the other messages are decoded from the message alone (C287_settled_exact_partial)."
  },
  {
   "property": "C288",
   "status": "partial",
   "theorems": [
    "Memar.Net.Socket.C288_fits_partial",
    "Memar.Net.Socket.C288_long_limit_violated",
    "Memar.Net.Socket.C288_long_named_read_violated"
   ],
   "note": "Refuted for every socket with a running timer and every duration whose end leaves 64 bits (C288_long_limit_violated); all histories of shorter durations go as on a clock without bounds (C288_fits_partial)."
  },
  {
   "property": "C289",
   "status": "partial",
   "theorems": [
    "Memar.Chapar.C289_known_partial",
    "Memar.Chapar.C289_new_each_time_violated",
    "Memar.Chapar.C289_mixed_violated",
    "Memar.Chapar.C289_way_back_violated",
    "Memar.Chapar.C289_long_frame_panic_violated"
   ],
   "note": "Refuted for every lawful table: each frame makes a new connection (C289_new_each_time_violated), paths that read as earlier frames are mixed up, frames of 256 or 257 bytes panic, and answers go to the port that the last payload byte names (C289_way_back_violated); a connection that is found is used (C289_known_partial)."
  },
  {
   "property": "C290",
   "status": "partial",
   "theorems": [
    "Memar.Registry.Parallel.C290_compress_meets_violated",
    "Memar.Registry.Parallel.C290_media_meets_violated",
    "Memar.Registry.Parallel.C290_error_meets_violated",
    "Memar.Registry.Parallel.C290_service_meets_violated",
    "Memar.Registry.Parallel.C290_register_meets_violated",
    "Memar.Registry.Parallel.C290_error_lookups",
    "Memar.Registry.Parallel.C290_service_lookups",
    "Memar.Registry.Parallel.C290_compress_type_lookups",
    "Memar.Registry.Parallel.C290_media_type_lookups",
    "Memar.Registry.Parallel.C290_error_turns_partial",
    "Memar.Registry.Parallel.C290_service_turns_partial",
    "Memar.Registry.Parallel.C290_compress_type_turns_partial",
    "Memar.Registry.Parallel.C290_media_type_turns_partial",
    "Memar.Registry.Parallel.C290_crash_violated",
    "Memar.Registry.Parallel.C290_duplicate_violated",
    "Memar.Registry.Parallel.C290_indexes_violated",
    "Memar.Registry.Parallel.C290_type_crash_violated",
    "Memar.Registry.Parallel.C290_encoding_lost_violated"
   ],
   "note": "Lookups are safe under every schedule and calls that do not overlap go as the sequential history; refuted for overlapping calls: the program can be ended, one identifier registered twice, an error left in one index only, a content encoding lost; exactly when a lookup ends the program while another goroutine registers or removes is said step by step. Missing: a read that is still going on when a write begins is one step."
  },
  {
   "property": "C291",
   "status": "partial",
   "theorems": [
    "Memar.Timer.Wheel.C291_silent",
    "Memar.Timer.Wheel.C291_all_run_partial",
    "Memar.Timer.Wheel.C291_lost_violated",
    "Memar.Timer.Wheel.C291_endless_violated"
   ],
   "note": "Every slot but the last: every timer of the slot runs in order and beside them only timers shorter than an interval, for all callbacks. Refuted: in the last slot timers are lost and others run early; a callback that adds its own short timer never returns."
  },
  {
   "property": "C292",
   "status": "partial",
   "theorems": [
    "Memar.Http.Expiry.C292_kept_partial",
    "Memar.Http.Expiry.C292_dashed_partial",
    "Memar.Http.Expiry.C292_far_violated",
    "Memar.Http.Expiry.C292_calendar",
    "Memar.Http.Expiry.C292_over_the_wire_partial"
   ],
   "note": "Years 0 to 9999 kept, for both forms and over the wire; every text read gives a calendar date. Refuted for every other year. The layouts of the standard library are modelled; weekday and zone offsets are parameters."
  },
  {
   "property": "C293",
   "status": "partial",
   "theorems": [
    "Memar.Http.C293_request_panic_violated",
    "Memar.Http.C293_handler_panic_violated",
    "Memar.Http.C293_service_by_text_partial",
    "Memar.Http.C293_any_query_violated",
    "Memar.Http.C293_error_text_partial",
    "Memar.Identifier.Go64.C293_panic_violated",
    "Memar.Identifier.Go64.C293_read_partial",
    "Memar.Identifier.Go64.C293_bad_text_violated",
    "Memar.Identifier.Go64.C293_round_trip_partial",
    "Memar.Identifier.Go64.C293_second_text_violated"
   ],
   "note": "The text of every identifier is read back and runs its service, for the decoder of the standard library as modelled from its documentation and source. Refuted: twelve good characters at the start panic, other bad texts run the service 0, three more texts per identifier."
  },
  {
   "property": "C294",
   "status": "partial",
   "theorems": [
    "Memar.Json.C294_minified_partial",
    "Memar.Json.C294_json_partial",
    "Memar.Json.C294_not_json_violated",
    "Memar.Json.C294_other_member_violated",
    "Memar.Json.C294_space_violated",
    "Memar.Json.C294_stale_violated"
   ],
   "note": "With ParseInt of the standard library: exactly the texts of a sign and digits are read, as their value, by the minified decoder, and every whole number of JSON from 0 up by both. Refuted: plus signs and zeros accepted, white space behind a number refused, other members read, the last number answered for texts that are cut off."
  },
  {
   "property": "C295",
   "status": "partial",
   "theorems": [
    "Memar.Json.Std64.C295_read_partial",
    "Memar.Json.Std64.C295_line_break_violated",
    "Memar.Json.Std64.C295_second_text_violated",
    "Memar.Json.Std64.C295_list_partial",
    "Memar.Json.Std64.C295_leak_violated"
   ],
   "note": "With RawStdEncoding of the standard library: the texts of the alphabet are read as the bytes their bits spell and all others refused; written values and lists are read back. Refuted: line breaks and left-over bits are ignored, items with line breaks keep bytes of the item before."
  },
  {
   "property": "C296",
   "status": "partial",
   "theorems": [
    "Memar.Chapar.C296_still_used_violated",
    "Memar.Chapar.C296_still_delivers_violated",
    "Memar.Chapar.C296_replaced_partial",
    "Memar.Chapar.C296_emptied_violated"
   ],
   "note": "A port registered in its place ends its use and leaves the others as they were. Refuted: a port that was taken away is used as before; an empty port in its place makes the next frame panic."
  },
  {
   "property": "C297",
   "status": "partial",
   "theorems": [
    "Memar.Chapar.C297_path_violated",
    "Memar.Chapar.C297_path_text_partial",
    "Memar.Net.Gp.C297_gp_violated"
   ],
   "note": "The text of a path determines its hops. Refuted: reading a text does nothing and reports no error, for every path and address."
  },
  {
   "property": "C298",
   "status": "partial",
   "theorems": [
    "Memar.Codec.C298_json_violated",
    "Memar.Codec.C298_socket_violated",
    "Memar.Codec.C298_copy_violated",
    "Memar.Codec.C298_uri_partial"
   ],
   "note": "The reader of request targets accounts for every byte. Refuted for the codec of JSON, sockets, and the copying operations of buffers."
  },
  {
   "property": "C299",
   "status": "proved",
   "theorems": [
    "Memar.Timer.WheelMany.C299_one_told",
    "Memar.Timer.WheelMany.C299_no_tick_after",
    "Memar.Timer.WheelMany.C299_panics",
    "Memar.Timer.WheelMany.C299_returned"
   ],
   "note": "Steps of any number of calls of Stop, of the ticker and of the goroutine; for a wheel started at most once, and for the bound after a return any number of goroutines."
  },
  {
   "property": "C300",
   "status": "partial",
   "theorems": [
    "Memar.Timer.WheelMany.C300_started_twice_violated",
    "Memar.Timer.WheelMany.C300_panics_violated",
    "Memar.Timer.WheelMany.C300_untold_partial"
   ],
   "note": "Nothing panics as long as no call of Stop was told that it stopped the wheel. Refuted: with two goroutines waiting, the one not reached panics in every schedule in which it makes its next step."
  },
  {
   "property": "C301",
   "status": "partial",
   "theorems": [
    "Memar.Event.C301_uncomparable_violated",
    "Memar.Event.C301_comparable_partial",
    "Memar.Event.C301_stuck_violated",
    "Memar.Event.C301_until_panic_partial",
    "Memar.Event.C301_no_panic_partial"
   ],
   "note": "Refuted for every schedule once something panics under the mutex (C301_stuck_violated) and for listeners of a type that cannot be compared, with the exact condition (C301_uncomparable_violated). Proved: until the first panic, and for listeners that can be compared and do not panic, it is the model of C40."
  },
  {
   "property": "C302",
   "status": "partial",
   "theorems": [
    "Memar.Pool.C302_new_violated",
    "Memar.Pool.C302_new_partial",
    "Memar.Pool.C302_close_violated",
    "Memar.Pool.C302_close_partial",
    "Memar.Pool.C302_returns_partial"
   ],
   "note": "Refuted for constructors that panic and for clean-up functions that panic or ask for the length within Close, with everything that follows in every later history. Proved: what a panicking constructor leaves alone, and Close with clean-up functions that return."
  },
  {
   "property": "C303",
   "status": "partial",
   "theorems": [
    "Memar.Pool.C303_two_rounds_partial",
    "Memar.Pool.C303_not_before",
    "Memar.Pool.C303_hot_violated"
   ],
   "note": "Within two rounds (C303_two_rounds_partial) and not before the second (C303_not_before) for the items of the list; refuted for the item kept aside. Rounds are counted, not measured: that a round comes once per idle timeout is the sleep of the cleaner."
  },
  {
   "property": "C304",
   "status": "partial",
   "theorems": [
    "Memar.Time.Sets.C304_weekdays",
    "Memar.Time.Sets.C304_hours",
    "Memar.Time.Sets.C304_half_hours",
    "Memar.Time.Sets.C304_all_none_partial",
    "Memar.Time.Sets.C304_all_equal_violated"
   ],
   "note": "Check proved exact for all joined sets of the three kinds; All and None behave as the full and the empty set; refuted: joining every named value never gives All."
  },
  {
   "property": "C305",
   "status": "partial",
   "theorems": [
    "Memar.Uri.Urn.nor.C305_parts_violated",
    "Memar.Uri.Urn.nor.C305_text_partial"
   ],
   "note": "Proved: the whole text is the last one given; refuted for every URN: the namespace and the name inside it are never reported."
  },
  {
   "property": "C306",
   "status": "partial",
   "theorems": [
    "Memar.Event.C306_plain_partial",
    "Memar.Event.C306_once_violated",
    "Memar.Event.C306_twice_violated",
    "Memar.Event.C306_remove_violated",
    "Memar.Event.C306_ignored",
    "Memar.Event.C306_event"
   ],
   "note": "Histories without Once, with one capture for each callback and no repeated addition make exactly the documented calls; what an event says of itself is proved; refuted for Once, repeated additions and removals by options, which are all ignored."
  },
  {
   "property": "C307",
   "status": "partial",
   "theorems": [
    "Memar.Timer.Queue.C307_answers",
    "Memar.Timer.Queue.C307_stop_violated",
    "Memar.Timer.Queue.C307_reset_violated",
    "Memar.Timer.Queue.C307_reset_partial"
   ],
   "note": "What each call answers is proved for every history of calls that return; Reset of a ticker sets its interval and leaves all other timers; refuted: Stop and Reset do not report whether they came in time, and Reset moves the next tick of a ticker. As in C61, calls run one after the other and callbacks do not use timers."
  },
  {
   "property": "C308",
   "status": "partial",
   "theorems": [
    "Memar.Registry.Declared.C308_told_apart_partial",
    "Memar.Registry.Declared.C308_told_apart_violated",
    "Memar.Registry.Declared.C308_found_partial",
    "Memar.Registry.Declared.C308_found_violated",
    "Memar.Registry.Declared.C308_space_violated"
   ],
   "note": "Holds for 84 of the 87 errors, for every program and order of initialisation. Refuted for three: ErrUnsupportedMediaType, UnsupportedTransferEncoding and ErrBadHost of net/http/errors are given one media type, so they are equal and only one of them is ever found. Two of net/uri/errors have media types that end with a space. The types er.Error and er.Err are not in the repository; what their Init does is an assumption stated in the file."
  },
  {
   "property": "C309",
   "status": "partial",
   "theorems": [
    "Memar.Tcp.C309_reported_partial",
    "Memar.Tcp.C309_pushed_violated",
    "Memar.Tcp.C309_again_violated",
    "Memar.Tcp.C309_gaps_violated"
   ],
   "note": "That a refusal is answered with an error is proved for segments without the push flag. Refuted: with the push flag the error of the buffer is replaced by nil; a refused segment is acknowledged before the buffer is asked, so that when it is sent again it is not appended; and later payloads that fit are taken behind the gap."
  },
  {
   "property": "C310",
   "status": "partial",
   "theorems": [
    "Memar.Http.C310_first_partial",
    "Memar.Http.C310_ambiguous_violated",
    "Memar.Http.C310_blank_violated",
    "Memar.Http.C310_negative_violated"
   ],
   "note": "Proved: from any start that is not negative the first line with the name is answered, and a miss is the empty text and zero. Refuted: a miss cannot be told from an empty value on the first line, a negative start panics, and a fresh header has sixteen blank lines that a search for the empty name finds."
  },
  {
   "property": "C311",
   "status": "partial",
   "theorems": [
    "Memar.Os.C311_history_partial",
    "Memar.Os.C311_reset",
    "Memar.Os.C311_unread_violated",
    "Memar.Os.C311_lost_after_reset_violated",
    "Memar.Os.C311_compress_violated"
   ],
   "note": "Histories and resets are proved; the length and the output of a file that is as stored, and changes after a reset, are refuted."
  },
  {
   "property": "C312",
   "status": "partial",
   "theorems": [
    "Memar.Http.C312_in_memory_partial",
    "Memar.Http.C312_stored_violated",
    "Memar.Http.C312_missing_violated",
    "Memar.Http.C312_main_page_unused_violated",
    "Memar.Http.C312_every_request_violated",
    "Memar.Http.C312_init_violated"
   ],
   "note": "Proved: a file with bytes in memory is sent with status 200, its length and its bytes. Refuted: stored files are sent empty, the main page is never shown, and after every history every request panics."
  },
  {
   "property": "C313",
   "status": "partial",
   "theorems": [
    "Memar.Http.C313_every_host_violated",
    "Memar.Http.C313_foreign_served_violated",
    "Memar.Http.C313_own_domain_partial",
    "Memar.Http.C313_used_again"
   ],
   "note": "Proved: requests for the domain are served, a request initialised again is read as a new one, and the check would be right if the authority were split. Refuted: every request read passes, those for other hosts included."
  },
  {
   "property": "C314",
   "status": "partial",
   "theorems": [
    "Memar.Http.C314_served_from_below",
    "Memar.Http.C314_outside_does_not_show",
    "Memar.Http.C314_made_inside_partial",
    "Memar.Http.C314_made_beside_violated",
    "Memar.Http.C314_made_above_violated"
   ],
   "note": "Proved: what is served lies below the directory and nothing else shows; plain names are made inside. Refuted: two dots lead out when directories are made by name."
  },
  {
   "property": "C315",
   "status": "partial",
   "theorems": [
    "Memar.Http.C315_followed_partial",
    "Memar.Http.C315_line_breaks_violated"
   ],
   "note": "Proved: the redirect read again passes the check with the same path and query, and is one line if the parts are. Refuted: line breaks of the path stand in the Location line."
  },
  {
   "property": "C316",
   "status": "partial",
   "theorems": [
    "Memar.Http.C316_comes_back_partial",
    "Memar.Http.C316_path_injected_violated",
    "Memar.Http.C316_reader_panics_violated"
   ],
   "note": "Proved: checked cookies without semicolons are read as set, and all but the last are found in the line sent back. Refuted: a value that passes the check sets the path of the cookie, or makes the reader panic."
  },
  {
   "property": "C317",
   "status": "partial",
   "theorems": [
    "Memar.Uri.C317_absolute_arrives",
    "Memar.Uri.C317_origin_arrives_partial",
    "Memar.Uri.C317_request_line_partial",
    "Memar.Uri.C317_query_stays_violated",
    "Memar.Uri.C317_colon_violated"
   ],
   "note": "Proved: for complete URIs every segment and every query value arrives; for targets without scheme and host, those without a colon in a segment. The same for targets read out of the first line of a request. Refuted: with a colon in any segment reading panics or finds a scheme; a request without a query, read by a URI used before, has the old query."
  }
 ]
}
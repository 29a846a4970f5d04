property	theorem	axioms
C01	Memar.Binary.C01_be16_load	propext, Quot.sound
C01	Memar.Binary.C01_be16_store	propext, Quot.sound
C01	Memar.Binary.C01_be16_roundtrip	propext, Classical.choice, Quot.sound
C01	Memar.Binary.C01_be32_load	propext, Quot.sound
C01	Memar.Binary.C01_be32_store	propext, Quot.sound
C01	Memar.Binary.C01_be32_roundtrip	propext, Classical.choice, Quot.sound
C01	Memar.Binary.C01_be64_load	propext, Quot.sound
C01	Memar.Binary.C01_be64_store	propext, Quot.sound
C01	Memar.Binary.C01_be64_roundtrip	propext, Classical.choice, Quot.sound
C01	Memar.Binary.C01_le16_load	propext, Quot.sound
C01	Memar.Binary.C01_le16_store	propext, Quot.sound
C01	Memar.Binary.C01_le16_roundtrip	propext, Classical.choice, Quot.sound
C01	Memar.Binary.C01_le32_load	propext, Quot.sound
C01	Memar.Binary.C01_le32_store	propext, Quot.sound
C01	Memar.Binary.C01_le32_roundtrip	propext, Classical.choice, Quot.sound
C01	Memar.Binary.C01_le64_load	propext, Quot.sound
C01	Memar.Binary.C01_le64_store	propext, Quot.sound
C01	Memar.Binary.C01_le64_roundtrip	propext, Classical.choice, Quot.sound
C01	Memar.Binary.C01_u8_roundtrip	propext, Quot.sound
C01	Memar.Binary.C01_bool_roundtrip	propext, Quot.sound
C01	Memar.Binary.C01_bool_bytes	propext
C02	Memar.Binary.C02_cpu_check_partial	propext
C02	Memar.Binary.C02_started_program_violated	propext, Quot.sound
C02	Memar.Binary.C02_be_on_be_cpu_is_le	propext, Quot.sound
C02	Memar.Binary.C02_le_on_be_cpu_is_be	propext, Quot.sound
C02	Memar.Binary.C02_portable_violated	propext
C02	Memar.Binary.C02_portable_partial	propext, Quot.sound
C02	Memar.Binary.C02_portable_widths_violated	propext, Classical.choice, Quot.sound
C03	Memar.Syllab.C03_fixed_roundtrip	propext, Classical.choice, Quot.sound
C03	Memar.Syllab.C03_int32_value	propext, Classical.choice, Quot.sound
C03	Memar.Syllab.C03_fixed_out_of_range	propext, Classical.choice, Quot.sound
C03	Memar.Syllab.C03_wraps	propext, Quot.sound
C04	Memar.Syllab.C04_field_roundtrip	propext, Classical.choice, Quot.sound
C04	Memar.Syllab.C04_record_roundtrip	propext, Classical.choice, Quot.sound
C04	Memar.Syllab.C04_short_buffer	propext, Quot.sound
C04	Memar.Syllab.C04_short_words	propext, Classical.choice, Quot.sound
C04	Memar.Syllab.C04_unsafe_agrees	propext, Classical.choice, Quot.sound
C04	Memar.Syllab.C04_unsafe_words	propext, Classical.choice, Quot.sound
C05	Memar.Syllab.C05_string_array_roundtrip	propext, Classical.choice, Quot.sound
C06	Memar.Math.C06_u8	propext, Quot.sound
C06	Memar.Math.C06_u16	propext, Quot.sound
C06	Memar.Math.C06_u32	propext, Quot.sound
C07	Memar.Math.C07_u64_violated	propext, Classical.choice, Quot.sound
C07	Memar.Math.C07_u64_product_violated	propext, Classical.choice, Quot.sound
C07	Memar.Math.C07_u64_partial	propext, Quot.sound
C07	Memar.Math.C07_u64_accepts_partial	propext, Classical.choice, Quot.sound
C07	Memar.Math.C07_u64_just_above_violated	propext, Classical.choice, Quot.sound
C07	Memar.Math.C07_parse_print_u64_partial	propext, Classical.choice, Quot.sound
C07	Memar.Math.C07_parse_print_u64_violated	propext, Classical.choice, Quot.sound
C08	Memar.Math.C08_print_parse	propext, Classical.choice, Quot.sound
C08	Memar.Math.C08_print_injective	propext, Quot.sound
C08	Memar.Math.C08_parse_print	propext, Classical.choice, Quot.sound
C09	Memar.Math.C09_per_exact	propext, Quot.sound
C09	Memar.Math.C09_per_monotone	propext, Quot.sound
C10	Memar.Uri.C10_roundtrip	propext, Classical.choice, Quot.sound
C10	Memar.Uri.C10_injective	propext, Classical.choice, Quot.sound
C10	Memar.Uri.C10_any_number	propext, Classical.choice, Quot.sound
C11	Memar.Uri.C11_encoded	propext, Classical.choice, Quot.sound
C11	Memar.Uri.C11_no_delimiters	propext, Classical.choice, Quot.sound
C11	Memar.Uri.C11_unnamed	propext, Classical.choice, Quot.sound
C11	Memar.Uri.C11_by_number	propext, Classical.choice, Quot.sound
C12	Memar.Uri.C12_length_exact	propext, Classical.choice, Quot.sound
C12	Memar.Uri.C12_unescape_exact	propext, Classical.choice, Quot.sound
C12	Memar.Uri.C12_length	propext, Classical.choice, Quot.sound
C12	Memar.Uri.C12_by_number	propext, Classical.choice, Quot.sound
C13	Memar.Http.C13_get_is_first_addition	propext, Quot.sound
C13	Memar.Http.C13_absent_reads_empty	propext, Quot.sound
C13	Memar.Http.C13_iteration_lists_all_values	propext, Quot.sound
C13	Memar.Http.C13_other_names_unaffected	propext, Quot.sound
C14	Memar.Http.C14_del_changes_nothing_partial	propext, Quot.sound
C14	Memar.Http.C14_exclude_changes_nothing_partial	propext, Quot.sound
C14	Memar.Http.C14_set_exact_partial	propext, Classical.choice, Quot.sound
C14	Memar.Http.C14_set_of_absent_partial	propext, Classical.choice, Quot.sound
C14	Memar.Http.C14_set_does_not_replace_violated	propext, Classical.choice, Quot.sound
C14	Memar.Http.C14_del_does_not_delete_violated	propext, Quot.sound
C15	Memar.Http.C15_pass_only_own_domain	propext, Classical.choice, Quot.sound
C15	Memar.Http.C15_own_domain_passes	propext, Classical.choice, Quot.sound
C15	Memar.Http.C15_redirects	propext, Classical.choice, Quot.sound
C15	Memar.Http.C15_other_hosts_rejected	propext, Classical.choice, Quot.sound
C16	Memar.Http.C16_dispatch_iff	propext, Classical.choice, Quot.sound
C16	Memar.Http.C16_wrong_method	propext, Classical.choice, Quot.sound
C16	Memar.Http.C16_bad_query	propext, Classical.choice, Quot.sound
C16	Memar.Http.C16_unknown_service	propext, Classical.choice, Quot.sound
C17	Memar.Http.C17_value_exact	propext, Quot.sound
C17	Memar.Http.C17_path_exact	propext, Quot.sound
C17	Memar.Http.C17_legal_unchanged	propext, Quot.sound
C17	Memar.Http.C17_subsequence_and_idempotent	propext, Quot.sound
C17	Memar.Http.C17_name_line_breaks	propext, Quot.sound
C17	Memar.Http.C17_check_cookie	propext, Quot.sound
C17	Memar.Http.C17_check_set_cookie	propext
C17	Memar.Http.C17_check_set_cookie_ok	propext, Quot.sound
C18	Memar.Timer.C18_add_exact	propext, Classical.choice, Quot.sound
C18	Memar.Timer.C18_siftUp_exact	propext, Classical.choice, Quot.sound
C18	Memar.Timer.C18_siftDown_exact	propext, Classical.choice, Quot.sound
C18	Memar.Timer.C18_delete_exact	propext, Classical.choice, Quot.sound
C18	Memar.Timer.C18_delete0_exact	propext, Classical.choice, Quot.sound
C18	Memar.Timer.C18_panics_iff	propext, Classical.choice, Quot.sound
C18	Memar.Timer.C18_history_conserves	propext, Classical.choice, Quot.sound
C19	Memar.Timer.C19_step_keeps_order	propext, Classical.choice, Quot.sound
C19	Memar.Timer.C19_history_order	propext, Classical.choice, Quot.sound
C19	Memar.Timer.C19_first_is_earliest	propext, Quot.sound
C19	Memar.Timer.C19_history_first_is_earliest	propext, Classical.choice, Quot.sound
C19	Memar.Timer.C19_drain_sorted	propext, Classical.choice, Quot.sound
C20	Memar.Timer.C20_when_exact	propext, Classical.choice, Quot.sound
C20	Memar.Timer.C20_never_in_the_past	propext, Classical.choice, Quot.sound
C20	Memar.Timer.C20_monotone	propext, Classical.choice, Quot.sound
C21	Memar.Timer.Queue.C21_stop_returns	propext, Classical.choice, Quot.sound
C22	Memar.Timer.Protocol.C22_start_alone	propext
C22	Memar.Timer.Protocol.C22_reset_alone	propext
C22	Memar.Timer.Protocol.C22_no_racy_access	propext, Classical.choice, Quot.sound
C22	Memar.Timer.Protocol.C22_at_rest	propext, Classical.choice, Quot.sound
C22	Memar.Timer.Protocol.C22_documented_transitions	propext, Classical.choice, Quot.sound
C22	Memar.Timer.Protocol.C22_stop_exact	propext, Classical.choice, Quot.sound
C22	Memar.Timer.Protocol.C22_stopped_not_run	propext, Classical.choice, Quot.sound
C23	Memar.Pool.C23_get_exclusive	propext, Classical.choice, Quot.sound
C23	Memar.Pool.C23_get_created	propext, Classical.choice, Quot.sound
C23	Memar.Pool.C23_held_once	propext, Classical.choice, Quot.sound
C24	Memar.Pool.C24_limit_violated	propext, Classical.choice, Quot.sound
C24	Memar.Pool.C24_limit_up_to_nil_partial	propext, Quot.sound
C24	Memar.Pool.C24_limit_without_cleaner_partial	propext, Quot.sound
C24	Memar.Pool.C24_limit_small_partial	propext, Classical.choice, Quot.sound
C25	Memar.Buffer.C25_writes_append	propext, Quot.sound
C25	Memar.Buffer.C25_write_reports_all	
C25	Memar.Buffer.C25_reset	propext
C26	Memar.Validators.C26_luhn_exact	propext, Quot.sound
C26	Memar.Validators.C26_detects_single_error	propext, Quot.sound
C26	Memar.Validators.C26_detects_transposition	propext, Classical.choice, Quot.sound
C26	Memar.Validators.C26_unique_check_digit	propext, Classical.choice, Quot.sound
C27	Memar.Time.C27_split_recombine	propext, Classical.choice, Quot.sound
C27	Memar.Time.C27_split_exact	propext, Classical.choice, Quot.sound
C27	Memar.Time.C27_recombine_split	propext, Classical.choice, Quot.sound
C28	Memar.Time.C28_strict_total_order	propext, Classical.choice, Quot.sound
C28	Memar.Time.C28_agrees_with_instants	propext, Classical.choice, Quot.sound
C28	Memar.Time.C28_until_difference	propext, Classical.choice, Quot.sound
C29	Memar.Time.C29_weekday	propext, Classical.choice, Quot.sound
C29	Memar.Time.C29_weekday_check	propext, Classical.choice, Quot.sound
C30	Memar.Identifier.C30_new16	propext, Classical.choice, Quot.sound
C30	Memar.Identifier.C30_newHash16	propext, Classical.choice, Quot.sound
C30	Memar.Identifier.C30_unique16	propext, Classical.choice, Quot.sound
C30	Memar.Identifier.C30_newRandom16	propext, Quot.sound
C30	Memar.Identifier.C30_new32	propext, Classical.choice, Quot.sound
C30	Memar.Identifier.C30_generated	propext, Quot.sound
C30	Memar.Identifier.C30_id_text	propext, Quot.sound
C30	Memar.Identifier.C30_id_text_any	propext, Quot.sound
C31	Memar.Identifier.Rfc4122.C31_v4	propext, Quot.sound
C31	Memar.Identifier.Rfc4122.C31_v4_no_random	propext, Quot.sound
C31	Memar.Identifier.Rfc4122.C31_text	propext, Classical.choice, Quot.sound
C31	Memar.Identifier.Rfc4122.C31_utility_text	propext, Classical.choice, Quot.sound
C31	Memar.Identifier.Rfc4122.C31_uri	propext, Classical.choice, Quot.sound
C31	Memar.Identifier.Rfc4122.C31_text_shape	propext, Classical.choice, Quot.sound
C31	Memar.Identifier.Rfc4122.C31_text_injective	propext, Classical.choice, Quot.sound
C31	Memar.Identifier.Rfc4122.C31_hex_digits	propext, Classical.choice, Quot.sound
C31	Memar.Identifier.Rfc4122.C31_integers	propext, Quot.sound
C32	Memar.Net.Tcp.C32_layout	propext, Quot.sound
C32	Memar.Net.Tcp.C32_set_field	propext, Classical.choice, Quot.sound
C32	Memar.Net.Tcp.C32_set_flag	propext, Classical.choice, Quot.sound
C32	Memar.Net.Tcp.C32_unset_flag	propext, Classical.choice, Quot.sound
C32	Memar.Net.Tcp.C32_flag_bits	propext, Classical.choice, Quot.sound
C33	Memar.Net.Tcp.C33_check	propext, Classical.choice, Quot.sound
C33	Memar.Net.Tcp.C33_checked_reads	propext, Classical.choice, Quot.sound
C33	Memar.Net.Tcp.C33_set_flag_bytes	propext, Classical.choice, Quot.sound
C33	Memar.Net.Tcp.C33_set_options	propext, Quot.sound
C34	Memar.Net.C34_ipv4_layout	propext, Quot.sound
C34	Memar.Net.C34_ipv4_set	propext, Classical.choice, Quot.sound
C34	Memar.Net.C34_ipv6_layout	propext, Quot.sound
C34	Memar.Net.C34_ipv6_set	propext, Classical.choice, Quot.sound
C34	Memar.Net.C34_udp_layout	propext, Quot.sound
C34	Memar.Net.C34_udp_set	propext, Classical.choice, Quot.sound
C34	Memar.Net.C34_gp_layout	propext, Quot.sound
C34	Memar.Net.C34_gp_set	propext, Classical.choice, Quot.sound
C34	Memar.Net.C34_gpaddr_layout	propext, Quot.sound
C34	Memar.Net.C34_gpaddr_set	propext, Classical.choice, Quot.sound
C34	Memar.Net.Ipv4.C34_ipv4_check	propext, Classical.choice, Quot.sound
C34	Memar.Net.Ipv4.C34_ipv4_checked_reads	propext, Classical.choice, Quot.sound
C34	Memar.Net.Ipv4.C34_ipv4_fragment_flags	propext, Classical.choice, Quot.sound
C34	Memar.Net.Ipv6.C34_ipv6_checked_reads	propext, Classical.choice, Quot.sound
C34	Memar.Net.Udp.C34_udp_checked_reads	propext, Quot.sound
C34	Memar.Net.Gp.C34_gp_check	propext, Quot.sound
C34	Memar.Net.Ipv4.C34_ipv4_set_options	propext, Quot.sound
C34	Memar.Net.Ipv4.C34_ipv4_clear_ecn	propext, Classical.choice, Quot.sound
C34	Memar.Net.Ipv4.C34_ipv4_mark_ecn	propext, Classical.choice, Quot.sound
C34	Memar.Net.Ipv4.C34_ipv4_ect_either	propext, Quot.sound
C34	Memar.Net.Ipv4.C34_ipv4_set_payload	propext, Quot.sound
C34	Memar.Net.Ipv6.C34_ipv6_set_payload	propext, Quot.sound
C34	Memar.Net.Ipv6.C34_ipv6_check	propext, Quot.sound
C34	Memar.Net.Udp.C34_udp_check	propext, Quot.sound
C35	Memar.Net.Ipv4Addr.C35_text	propext, Classical.choice, Quot.sound
C35	Memar.Net.Ipv4Addr.C35_roundtrip	propext, Classical.choice, Quot.sound
C35	Memar.Net.Ipv4Addr.C35_text_injective	propext, Classical.choice, Quot.sound
C35	Memar.Net.Ipv4Addr.C35_parse_length	propext
C35	Memar.Net.StdIp.C35_standard	propext, Classical.choice, Quot.sound
C36	Memar.Chapar.C36_content_partial	propext, Classical.choice, Quot.sound
C36	Memar.Chapar.C36_length_violated	propext, Classical.choice, Quot.sound
C36	Memar.Chapar.C36_short_violated	propext, Quot.sound
C36	Memar.Chapar.C36_twice_violated	propext, Classical.choice, Quot.sound
C37	Memar.Chapar.C37_travel	propext, Quot.sound
C37	Memar.Chapar.C37_init	propext, Quot.sound
C37	Memar.Chapar.C37_ports_and_path	propext, Quot.sound
C38	Memar.Chapar.C38_broadcast_violated	propext, Quot.sound
C38	Memar.Chapar.C38_init_violated	propext, Quot.sound
C38	Memar.Chapar.C38_first_round_partial	propext, Quot.sound
C38	Memar.Chapar.C38_init_first_round_partial	propext, Classical.choice, Quot.sound
C39	Memar.Net.Frames.C39_progress	propext, Quot.sound
C39	Memar.Net.Frames.C39_unknown_service	propext, Quot.sound
C39	Memar.Net.Frames.C39_service_looked_up	propext, Quot.sound
C40	Memar.Event.C40_remove_earliest	propext, Quot.sound
C40	Memar.Event.C40_registration_order	propext, Classical.choice, Quot.sound
C40	Memar.Event.C40_calls_each	propext, Classical.choice, Quot.sound
C40	Memar.Event.C40_every_schedule	propext, Quot.sound
C40	Memar.Event.C40_no_deadlock	propext, Quot.sound
C41	Memar.Registry.Errors.C41_by_id	propext, Classical.choice, Quot.sound
C41	Memar.Registry.Errors.C41_by_media_type	propext, Classical.choice, Quot.sound
C41	Memar.Registry.Errors.C41_dev_refused	propext, Classical.choice, Quot.sound
C41	Memar.Registry.Errors.C41_dev_never_overwritten	propext, Classical.choice, Quot.sound
C41	Memar.Registry.Errors.C41_lookups_agree	propext, Classical.choice, Quot.sound
C42	Memar.Registry.Services.C42_by_id	propext, Classical.choice, Quot.sound
C42	Memar.Registry.Services.C42_by_media_type	propext, Classical.choice, Quot.sound
C42	Memar.Registry.Services.C42_zero_rejected	propext
C42	Memar.Registry.Services.C42_never_replaced	propext
C43	Memar.Metric.C43_sequential	propext, Classical.choice, Quot.sound
C43	Memar.Metric.C43_any_interleaving	propext, Classical.choice, Quot.sound
C43	Memar.Metric.C43_completes	propext, Classical.choice, Quot.sound
C43	Memar.Metric.C43_conservation	propext, Classical.choice, Quot.sound
C43	Memar.Metric.C43_conservation_always	propext, Classical.choice, Quot.sound
C43	Memar.Metric.C43_conservation_quiescent	propext, Classical.choice, Quot.sound
C43	Memar.Metric.C43_census	propext, Classical.choice, Quot.sound
C44	Memar.Command.C44_assigns_in_order	propext, Classical.choice, Quot.sound
C44	Memar.Command.C44_sound	propext, Classical.choice, Quot.sound
C44	Memar.Command.C44_declarations	propext, Classical.choice, Quot.sound
C44	Memar.Command.C44_lookup	propext, Quot.sound
C45	Memar.File.C45_replaced	propext, Quot.sound
C45	Memar.File.C45_outside	propext, Quot.sound
C45	Memar.File.C45_nothing	
C46	Memar.User.C46_kinds	propext, Quot.sound
C46	Memar.User.C46_chosen	propext, Quot.sound
C46	Memar.User.C46_set_inclusion	propext, Quot.sound
C46	Memar.User.C46_preorder	propext, Quot.sound
C46	Memar.User.C46_monotone	propext, Quot.sound
C46	Memar.User.C46_masks	propext, Quot.sound
C47	Memar.Json.C47_uint	propext, Classical.choice, Quot.sound
C47	Memar.Json.C47_uint_minified	propext, Classical.choice, Quot.sound
C47	Memar.Json.C47_bool	propext, Classical.choice, Quot.sound
C47	Memar.Json.C47_bool_minified	propext, Classical.choice, Quot.sound
C47	Memar.Json.C47_string	propext, Classical.choice, Quot.sound
C47	Memar.Json.C47_string_minified	propext, Classical.choice, Quot.sound
C47	Memar.Json.C47_key	propext, Classical.choice, Quot.sound
C47	Memar.Json.C47_key_minified	propext, Classical.choice, Quot.sound
C47	Memar.Json.C47_slice	propext, Classical.choice, Quot.sound
C47	Memar.Json.C47_slice_minified	propext, Classical.choice, Quot.sound
C47	Memar.Json.C47_array	propext, Classical.choice, Quot.sound
C47	Memar.Json.C47_array_minified	propext, Classical.choice, Quot.sound
C47	Memar.Json.C47_int_minified	propext, Classical.choice, Quot.sound
C47	Memar.Json.C47_object	propext, Classical.choice, Quot.sound
C47	Memar.Json.C47_base64	propext
C47	Memar.Json.C47_base64_capacity	propext, Quot.sound
C47	Memar.Json.C47_base64_minified	propext
C47	Memar.Json.C47_list32	propext, Classical.choice, Quot.sound
C47	Memar.Json.C47_array_texts	propext, Classical.choice, Quot.sound
C47	Memar.Json.C47_one_number_then_null	propext, Classical.choice, Quot.sound
C47	Memar.Json.C47_raw_string	propext, Classical.choice, Quot.sound
C48	Memar.Tcp.C48_total	propext, Classical.choice, Quot.sound
C48	Memar.Tcp.C48_push	propext, Quot.sound
C48	Memar.Tcp.C48_active_open	propext, Classical.choice, Quot.sound
C48	Memar.Tcp.C48_need_reset	propext
C49	Memar.Www.C49_js	propext, Classical.choice, Quot.sound
C49	Memar.Www.C49_bad_number	propext, Classical.choice, Quot.sound
C49	Memar.Www.C49_plain	propext, Quot.sound
C50	Memar.Validators.C50_text_length	propext, Classical.choice, Quot.sound
C51	Memar.Math.C51_bool	propext, Classical.choice, Quot.sound
C51	Memar.Math.C51_signed_print_injective	propext, Classical.choice, Quot.sound
C51	Memar.Math.C51_signed_text	propext, Classical.choice, Quot.sound
C52	Memar.Http.C52_exactly_one_response	propext, Classical.choice, Quot.sound
C52	Memar.Http.C52_host_check_guards_handlers	propext, Classical.choice, Quot.sound
C52	Memar.Http.C52_registered_address	propext, Classical.choice, Quot.sound
C52	Memar.Http.C52_unreadable_request	propext, Classical.choice, Quot.sound
C52	Memar.Http.C52_every_arrival_answered_once	propext, Classical.choice, Quot.sound
C52	Memar.Http.C52_readable_request	propext, Classical.choice, Quot.sound
C53	Memar.Http.C53_cookie_round_trip	propext, Classical.choice, Quot.sound
C54	Memar.Http.C54_set_cookie_round_trip_partial	propext, Classical.choice, Quot.sound
C54	Memar.Http.C54_samesite_with_boolean_panics_violated	propext, Classical.choice, Quot.sound
C55	Memar.Http.C55_domain_exact	propext, Quot.sound
C55	Memar.Net.StdIp.C55_domain_standard	propext, Classical.choice, Quot.sound
C56	Memar.Http.C56_single_coding_truncated_violated	propext, Classical.choice, Quot.sound
C56	Memar.Http.C56_rest_truncated_violated	propext, Quot.sound
C56	Memar.Http.C56_leading_comma_panics_violated	propext
C56	Memar.Http.C56_last_coding_partial	propext, Quot.sound
C56	Memar.Http.C56_no_coding_partial	propext, Quot.sound
C57	Memar.Http.C57_pragma_rule	propext, Classical.choice, Quot.sound
C58	Memar.Http.C58_content_length_round_trip	propext, Classical.choice, Quot.sound
C58	Memar.Http.C58_absent_length_is_zero	propext, Classical.choice, Quot.sound
C59	Memar.Timer.C59_late_exact_violated	propext, Classical.choice, Quot.sound
C59	Memar.Timer.C59_next_in_future_partial	propext, Classical.choice, Quot.sound
C59	Memar.Timer.C59_late_timer_violated	propext, Classical.choice, Quot.sound
C60	Memar.Timer.C60_sleepUntil_exact	propext, Classical.choice, Quot.sound
C60	Memar.Timer.C60_wakeTime_exact	propext, Quot.sound
C60	Memar.Timer.C60_modifiedEarliest_exact	propext, Quot.sound
C61	Memar.Timer.Queue.C61_callbacks_that_use_timers	propext, Classical.choice, Quot.sound
C61	Memar.Timer.Queue.C61_callbacks_only_when_armed_and_due	propext, Classical.choice, Quot.sound
C61	Memar.Timer.Queue.C61_stopped_timer_is_silent	propext, Classical.choice, Quot.sound
C62	Memar.Timer.Queue.C62_front_blocks_violated	propext, Classical.choice, Quot.sound
C62	Memar.Timer.Queue.C62_due_timers_run_with_callbacks_partial	propext, Classical.choice, Quot.sound
C62	Memar.Timer.Queue.C62_due_timers_run_partial	propext, Classical.choice, Quot.sound
C62	Memar.Timer.Queue.C62_periodic_blocks_others_violated	propext, Classical.choice, Quot.sound
C63	Memar.Timer.Queue.C63_bookkeeping_with_callbacks	propext, Classical.choice, Quot.sound
C63	Memar.Timer.Queue.C63_bookkeeping	propext, Classical.choice, Quot.sound
C64	Memar.Timer.Queue.C64_sweep_exact	propext, Classical.choice, Quot.sound
C64	Memar.Timer.Queue.C64_check_bounds_stopped	propext, Classical.choice, Quot.sound
C65	Memar.Timer.Queue.C65_ticker_that_resets_itself_violated	propext, Classical.choice, Quot.sound
C65	Memar.Timer.Queue.C65_check_returns_partial	propext, Classical.choice, Quot.sound
C65	Memar.Timer.Queue.C65_check_after_reset_violated	propext, Classical.choice, Quot.sound
C65	Memar.Timer.Queue.C65_check_violated	propext, Classical.choice, Quot.sound
C66	Memar.Timer.Queue.C66_failed_call_is_inert	propext, Classical.choice, Quot.sound
C66	Memar.Timer.Queue.C66_duration_check	propext, Classical.choice, Quot.sound
C67	Memar.Timer.Ticker.C67_refuses_below_one	propext
C67	Memar.Timer.Ticker.C67_signal_is_one_slot	propext
C68	Memar.Timer.Wheel.C68_every_period_drifts_violated	propext, Classical.choice, Quot.sound
C68	Memar.Timer.Wheel.C68_tick_panics_violated	propext, Classical.choice, Quot.sound
C68	Memar.Timer.Wheel.C68_made	propext, Quot.sound
C68	Memar.Timer.Wheel.C68_runs_again_partial	propext, Classical.choice, Quot.sound
C68	Memar.Timer.Wheel.C68_fires_on_its_tick_partial	propext, Quot.sound
C68	Memar.Timer.Wheel.C68_no_wrap_violated	propext, Quot.sound
C68	Memar.Timer.Wheel.C68_one_shot_runs_at_once_violated	propext, Quot.sound
C68	Memar.Timer.Wheel.C68_period_drifts_violated	propext
C69	Memar.Pool.C69_lifo_violated	propext, Classical.choice, Quot.sound
C69	Memar.Pool.C69_hot_item_partial	propext, Quot.sound
C69	Memar.Pool.C69_hot_item_first_violated	propext, Quot.sound
C70	Memar.Pool.C70_close_exact_partial	propext, Quot.sound
C70	Memar.Pool.C70_close_leaks_violated	propext, Classical.choice, Quot.sound
C71	Memar.Pool.C71_get_after_close	propext, Quot.sound
C71	Memar.Pool.C71_put_after_close	propext, Quot.sound
C71	Memar.Pool.C71_close_is_final	propext, Quot.sound
C71	Memar.Pool.C71_get_creates	propext, Quot.sound
C72	Memar.Buffer.C72_grow_makes_room	propext, Classical.choice, Quot.sound
C72	Memar.Buffer.C72_capacity	propext, Quot.sound
C72	Memar.Buffer.C72_no_second_allocation	propext, Classical.choice, Quot.sound
C73	Memar.Time.C73_store_alone	propext, Quot.sound
C73	Memar.Time.C73_swap_alone	
C74	Memar.Time.C74_second_elapsed_violated	propext, Classical.choice, Quot.sound
C74	Memar.Time.C74_nano_in_second_violated	propext, Classical.choice, Quot.sound
C74	Memar.Time.C74_arithmetic_partial	propext, Quot.sound
C75	Memar.Time.C75_hours_days	propext, Classical.choice, Quot.sound
C75	Memar.Time.C75_elapsed_units	propext, Classical.choice, Quot.sound
C76	Memar.Net.Ipv6Addr.C76_parse_full	propext, Quot.sound
C76	Memar.Net.Ipv6Addr.C76_parse_ellipsis	propext, Classical.choice, Quot.sound
C76	Memar.Net.Ipv6Addr.C76_mapped	propext
C76	Memar.Net.Ipv6Addr.C76_kinds	propext, Quot.sound
C76	Memar.Net.Ipv6Addr.C76_multicast_scope	propext, Classical.choice, Quot.sound
C76	Memar.Net.Ipv6Addr.C76_link_local	propext, Classical.choice, Quot.sound
C76	Memar.Net.Ipv6Addr.C76_kinds_exact	propext, Classical.choice, Quot.sound
C77	Memar.Chapar.C77_set_alternative	propext, Quot.sound
C77	Memar.Chapar.C77_alternatives_distinct	propext, Quot.sound
C78	Memar.Registry.Types.C78_media_types	propext, Classical.choice, Quot.sound
C78	Memar.Registry.Types.C78_compress_types	propext, Classical.choice, Quot.sound
C78	Memar.Registry.Types.C78_listed_found	propext, Classical.choice, Quot.sound
C78	Memar.Registry.Types.C78_parse	propext, Quot.sound
C79	Memar.Registry.ErrorValue.C79_values	propext, Classical.choice, Quot.sound
C79	Memar.Registry.ErrorValue.C79_wrap_values	propext, Classical.choice, Quot.sound
C79	Memar.Registry.ErrorValue.C79_wrapped_nil_violated	propext, Quot.sound
C79	Memar.Registry.ErrorValue.C79_is_equal	propext, Classical.choice, Quot.sound
C79	Memar.Registry.ErrorValue.C79_chain	propext, Classical.choice, Quot.sound
C79	Memar.Registry.ErrorValue.C79_chain_deep	propext, Classical.choice, Quot.sound
C79	Memar.Registry.ErrorValue.C79_chain_deep_past	propext, Quot.sound
C80	Memar.Metric.C80_traffic	propext, Quot.sound
C80	Memar.Metric.C80_sequential	propext, Quot.sound
C80	Memar.Metric.C80_order	propext, Quot.sound
C81	Memar.User.C81_layout_partial	propext, Quot.sound
C81	Memar.User.C81_type_violated	propext
C81	Memar.User.C81_time_violated	propext, Quot.sound
C81	Memar.User.C81_reads_partial	propext, Quot.sound
C81	Memar.User.C81_set_time_violated	propext, Quot.sound
C82	Memar.Command.C82_to_arguments_partial	propext, Quot.sound
C82	Memar.Command.C82_roundtrip_violated	propext, Classical.choice, Quot.sound
C83	Memar.Command.Cmd.C83_dispatch	propext, Classical.choice, Quot.sound
C83	Memar.Command.Cmd.C83_rest_is_suffix	propext, Classical.choice, Quot.sound
C83	Memar.Command.Cmd.C83_sub_command	propext, Quot.sound
C83	Memar.Command.Cmd.C83_refused	propext, Classical.choice, Quot.sound
C83	Memar.Command.C83_path	propext, Quot.sound
C84	Memar.File.C84_split	propext, Quot.sound
C84	Memar.File.C84_extension	propext, Quot.sound
C84	Memar.File.C84_hash_keeps_extension	propext, Quot.sound
C84	Memar.File.C84_hash_differs	propext, Quot.sound
C84	Memar.File.C84_parts_join	propext, Quot.sound
C85	Memar.File.C85_finds	propext, Classical.choice, Quot.sound
C86	Memar.Json.C86_slice_terminates	propext, Classical.choice, Quot.sound
C86	Memar.Json.C86_uint_shrinks	propext, Quot.sound
C86	Memar.Json.C86_key_shrinks	propext, Quot.sound
C86	Memar.Json.C86_key_left	propext, Quot.sound
C86	Memar.Json.C86_bool_panic	propext
C86	Memar.Json.C86_string_panic	propext, Classical.choice, Quot.sound
C86	Memar.Json.C86_null	propext, Classical.choice, Quot.sound
C87	Memar.Json.C87_error_dropped_violated	
C87	Memar.Json.C87_stale_violated	propext
C87	Memar.Json.C87_marshal_partial	propext
C87	Memar.Json.C87_refused_text_violated	propext
C88	Memar.Www.C88_extract_anywhere	propext, Classical.choice, Quot.sound
C88	Memar.Www.C88_extract	propext, Classical.choice, Quot.sound
C88	Memar.Www.C88_collect	propext, Classical.choice, Quot.sound
C88	Memar.Www.C88_once	propext, Classical.choice, Quot.sound
C88	Memar.Www.C88_addJS_once	propext, Quot.sound
C89	Memar.Www.C89_html_template	propext, Classical.choice, Quot.sound
C89	Memar.Www.C89_css_html	propext, Classical.choice, Quot.sound
C89	Memar.Www.C89_css_js	propext, Classical.choice, Quot.sound
C89	Memar.Www.C89_html_js	propext, Classical.choice, Quot.sound
C90	Memar.Tcp.C90_mss_partial	propext, Quot.sound
C90	Memar.Tcp.C90_other_option_violated	propext, Quot.sound
C90	Memar.Tcp.C90_truncated_violated	propext, Quot.sound
C90	Memar.Tcp.C90_next_partial	propext, Quot.sound
C90	Memar.Tcp.C90_next_violated	propext, Quot.sound
C90	Memar.Tcp.C90_next_lands_violated	propext, Quot.sound
C91	Memar.Tcp.C91_limit_partial	propext, Classical.choice, Quot.sound
C91	Memar.Tcp.C91_wraps_violated	propext, Classical.choice, Quot.sound
C91	Memar.Tcp.C91_reinit_violated	propext, Classical.choice, Quot.sound
C92	Memar.Tcp.C92_nothing_to_do	propext, Quot.sound
C92	Memar.Tcp.C92_used	propext, Quot.sound
C92	Memar.Tcp.C92_idle	propext, Quot.sound
C92	Memar.Tcp.C92_user_timeout_check	propext, Classical.choice, Quot.sound
C93	Memar.Tcp.C93_never_armed_violated	propext, Quot.sound
C93	Memar.Tcp.C93_off_by_default	propext
C93	Memar.Tcp.C93_delayed_ack_partial	propext, Classical.choice, Quot.sound
C94	Memar.Pool.C94_init_exact	propext, Classical.choice, Quot.sound
C94	Memar.Pool.C94_close_exact	propext
C95	Memar.Pool.C95_len_of_empty_violated	propext, Classical.choice, Quot.sound
C95	Memar.Pool.C95_len_misses_hot_item_violated	propext, Quot.sound
C95	Memar.Pool.C95_len_partial	propext, Quot.sound
C96	Memar.Uri.C96_absolute_form_partial	propext, Classical.choice, Quot.sound
C96	Memar.Uri.C96_origin_form_partial	propext, Classical.choice, Quot.sound
C96	Memar.Uri.C96_host_form_partial	propext, Classical.choice, Quot.sound
C96	Memar.Uri.C96_old_parts_stay_violated	propext, Classical.choice, Quot.sound
C96	Memar.Uri.C96_colon_in_path_violated	propext, Classical.choice, Quot.sound
C96	Memar.Uri.C96_no_path_violated	propext, Classical.choice, Quot.sound
C96	Memar.Uri.C96_question_in_fragment_violated	propext, Classical.choice, Quot.sound
C97	Memar.Uri.C97_nothing_lost	propext, Quot.sound
C98	Memar.Uri.C98_written_is_read_back	propext, Classical.choice, Quot.sound
C98	Memar.Uri.C98_origin_is_read_back	propext, Classical.choice, Quot.sound
C98	Memar.Uri.C98_read_is_written_back	propext, Classical.choice, Quot.sound
C98	Memar.Uri.C98_append	propext, Classical.choice, Quot.sound
C99	Memar.Uri.C99_set_after_write_violated	propext, Classical.choice, Quot.sound
C99	Memar.Uri.C99_reinit_violated	propext, Classical.choice, Quot.sound
C99	Memar.Uri.C99_before_first_write_partial	propext, Classical.choice, Quot.sound
C99	Memar.Uri.C99_len	propext, Classical.choice, Quot.sound
C99	Memar.Uri.C99_len_violated	propext, Classical.choice, Quot.sound
C100	Memar.Uri.C100_host_port_partial	propext, Classical.choice, Quot.sound
C100	Memar.Uri.C100_user_partial	propext, Classical.choice, Quot.sound
C100	Memar.Uri.C100_user_host_violated	propext, Classical.choice, Quot.sound
C100	Memar.Uri.C100_uri_host_violated	propext, Classical.choice, Quot.sound
C101	Memar.Uri.C101_init	propext, Classical.choice, Quot.sound
C101	Memar.Uri.C101_round_trip	propext, Classical.choice, Quot.sound
C101	Memar.Uri.C101_keys	propext, Classical.choice, Quot.sound
C102	Memar.Uri.C102_exact	propext, Classical.choice, Quot.sound
C102	Memar.Uri.C102_covers_all_texts	propext, Classical.choice, Quot.sound
C103	Memar.Uri.C103_set	propext
C103	Memar.Uri.C103_add	propext
C103	Memar.Uri.C103_del	propext
C103	Memar.Uri.C103_history	propext, Quot.sound
C103	Memar.Uri.C103_history_has	propext, Quot.sound
C104	Memar.Http.C104_first_is_best	propext, Classical.choice, Quot.sound
C104	Memar.Http.C104_spaces_ignored	propext, Quot.sound
C105	Memar.Http.C105_max_age	propext, Classical.choice, Quot.sound
C105	Memar.Http.C105_no_age	propext, Quot.sound
C105	Memar.Http.C105_age_text	propext, Quot.sound
C105	Memar.Http.C105_other_attributes	propext, Classical.choice, Quot.sound
C105	Memar.Http.C105_same_site	propext, Classical.choice, Quot.sound
C105	Memar.Http.C105_over_the_wire	propext, Classical.choice, Quot.sound
C105	Memar.Http.C105_one_line_per_cookie	propext, Classical.choice, Quot.sound
C106	Memar.Http.C106_status_text	propext, Classical.choice, Quot.sound
C106	Memar.Http.C106_unknown_status_text	propext, Classical.choice, Quot.sound
C106	Memar.Http.C106_get_status_code	propext, Quot.sound
C106	Memar.Http.C106_status_round_trip	propext, Classical.choice, Quot.sound
C106	Memar.Http.C106_status_by_error	propext, Classical.choice, Quot.sound
C106	Memar.Http.C106_redirect	propext, Classical.choice, Quot.sound
C107	Memar.Http.C107_sent_response	propext, Classical.choice, Quot.sound
C107	Memar.Http.C107_length_announced	propext, Classical.choice, Quot.sound
C108	Memar.Http.C108_host_line_only_without_authority	propext, Classical.choice, Quot.sound
C108	Memar.Http.C108_idempotent	propext, Classical.choice, Quot.sound
C109	Memar.Http.C109_errors_reported	propext
C109	Memar.Http.C109_srpc_unsent	propext
C109	Memar.Http.C109_srpc_serve	
C110	Memar.Http.C110_serves_file_partial	propext, Classical.choice, Quot.sound
C110	Memar.Http.C110_missing_page_panics_violated	propext, Classical.choice, Quot.sound
C111	Memar.Convert.C111_bytes_view	propext, Quot.sound
C111	Memar.Convert.C111_words_view	propext, Quot.sound
C111	Memar.Convert.C111_round_trip	propext
C111	Memar.Convert.C111_back_trip	propext
C111	Memar.Convert.C111_inside	propext
C111	Memar.Convert.C111_shared	propext, Quot.sound
C111	Memar.Convert.C111_string	
C112	Memar.Os.C112_file_unusable_violated	propext, Classical.choice, Quot.sound
C112	Memar.Os.C112_directory_unusable_violated	propext, Classical.choice, Quot.sound
C112	Memar.Os.C112_mkdir_partial	propext, Quot.sound
C112	Memar.Os.C112_mkdir_again_violated	propext, Classical.choice, Quot.sound
C112	Memar.Os.C112_search_violated	propext, Classical.choice, Quot.sound
C112	Memar.Os.C112_delete_panics_violated	propext, Classical.choice, Quot.sound
C113	Memar.Os.C113_directory_parts	propext, Classical.choice, Quot.sound
C113	Memar.Os.C113_no_panic	propext, Classical.choice, Quot.sound
C114	Memar.Os.C114_listing_sorted	propext, Classical.choice, Quot.sound
C114	Memar.Os.C114_find_files	propext, Quot.sound
C114	Memar.Os.C114_find_file	propext, Quot.sound
C115	Memar.Os.C115_content_round_trip	propext
C115	Memar.Os.C115_compress	propext, Classical.choice, Quot.sound
C115	Memar.Os.C115_read_from_partial	propext
C115	Memar.Os.C115_empty_reader_violated	propext
C115	Memar.Os.C115_replace	propext
C115	Memar.Os.C115_rename	propext, Classical.choice, Quot.sound
C115	Memar.Os.C115_never_compressed	propext, Classical.choice, Quot.sound
C116	Memar.Net.Socket.C116_init	propext, Quot.sound
C116	Memar.Net.Socket.C116_reinit	propext, Quot.sound
C117	Memar.Net.Socket.C117_status_delivered_partial	propext
C117	Memar.Net.Socket.C117_status_blocks_violated	propext, Quot.sound
C117	Memar.Net.Socket.C117_std_deadline_violated	propext, Quot.sound
C117	Memar.Net.Socket.C117_std_deadline_partial	propext, Quot.sound
C117	Memar.Net.Socket.C117_std_one_direction_violated	propext, Quot.sound
C117	Memar.Net.Socket.C117_std_both_directions_partial	propext, Quot.sound
C117	Memar.Net.Socket.C117_addresses_violated	
C117	Memar.Net.Socket.C117_std_settings_violated	
C117	Memar.Net.Socket.C117_deadline_now_violated	propext
C118	Memar.Net.Socket.C118_wait_complete	propext
C118	Memar.Net.Socket.C118_receive	propext
C119	Memar.Queue.C119_write_panics_violated	propext, Quot.sound
C119	Memar.Queue.C119_never_full_violated	
C119	Memar.Queue.C119_overwritten_violated	propext
C119	Memar.Queue.C119_middle_lost_violated	propext
C119	Memar.Queue.C119_codec_partial	propext, Quot.sound
C119	Memar.Queue.C119_capacity	
C120	Memar.App.C120_change_announced	propext
C120	Memar.App.C120_within_capacity	propext, Quot.sound
C120	Memar.App.C120_listeners_kept	propext, Quot.sound
C121	Memar.App.C121_status_store	propext
C121	Memar.App.C121_told	propext, Quot.sound
C122	Memar.Time.C122_by_second_negative	propext
C122	Memar.Time.C122_by_second	propext, Classical.choice, Quot.sound
C123	Memar.Time.C123_english_names	propext, Quot.sound
C123	Memar.Time.C123_names_distinct	propext
C124	Memar.Syllab.Gen.C124_roundtrip_partial	propext, Classical.choice, Quot.sound
C124	Memar.Syllab.Gen.C124_layout	propext, Classical.choice, Quot.sound
C124	Memar.Syllab.Gen.C124_unused_variables_violated	propext
C124	Memar.Syllab.Gen.C124_uint64_slice_violated	propext, Classical.choice, Quot.sound
C124	Memar.Syllab.Gen.C124_float64_array_violated	propext, Quot.sound
C124	Memar.Syllab.Gen.C124_string_slice_violated	propext, Classical.choice, Quot.sound
C124	Memar.Syllab.Gen.C124_string_array_violated	propext
C124	Memar.Syllab.Gen.C124_nested_lengths_partial	propext
C124	Memar.Syllab.Gen.C124_no_heap	propext
C124	Memar.Syllab.Gen.C124_floats_partial	propext, Classical.choice, Quot.sound
C124	Memar.Syllab.Gen.C124_short_array_violated	propext, Quot.sound
C125	Memar.Syllab.Gen.C125_tagged_out	propext, Quot.sound
C125	Memar.Syllab.Gen.C125_members	propext, Quot.sound
C126	Memar.Syllab.Gen.C126_names	propext, Classical.choice, Quot.sound
C126	Memar.Syllab.Gen.C126_functions	propext, Quot.sound
C127	Memar.Syllab.Gen.C127_no_allocation_violated	propext, Quot.sound
C127	Memar.Syllab.Gen.C127_anonymous_violated	propext, Quot.sound
C127	Memar.Syllab.Gen.C127_endless_violated	propext, Quot.sound
C127	Memar.Syllab.Gen.C127_nested_violated	propext, Quot.sound
C127	Memar.Syllab.Gen.C127_ends_partial	propext, Classical.choice, Quot.sound
C128	Memar.Os.C128_replace_location	propext, Classical.choice, Quot.sound
C129	Memar.Compress.C129_compressor_partial	propext, Quot.sound
C129	Memar.Compress.C129_flate_error	propext, Quot.sound
C129	Memar.Compress.C129_gzip_error_violated	propext, Quot.sound
C129	Memar.Compress.C129_reinit_violated	propext, Quot.sound
C129	Memar.Compress.C129_level_violated	propext, Quot.sound
C129	Memar.Compress.C129_write_partial	propext
C129	Memar.Compress.C129_write_count_violated	propext
C130	Memar.Compress.C130_flate_read_only	
C130	Memar.Compress.C130_flate_write	propext
C130	Memar.Compress.C130_failing_source	propext
C130	Memar.Compress.C130_refused_input	propext
C130	Memar.Compress.C130_flate_error	propext, Quot.sound
C130	Memar.Compress.C130_decompressAll	propext
C131	Memar.Error.C131_convert_partial	
C131	Memar.Error.C131_back_violated	
C131	Memar.Error.C131_identity_violated	propext
C132	Memar.Language.C132_text_partial	propext, Quot.sound
C132	Memar.Language.C132_char_partial	propext, Quot.sound
C132	Memar.Language.C132_last_violated	propext, Quot.sound
C132	Memar.Language.C132_compress_violated	propext
C133	Memar.Www.Assets.C133_style_dir_partial	propext, Classical.choice, Quot.sound
C133	Memar.Www.Assets.C133_hashed_partial	propext, Classical.choice, Quot.sound
C133	Memar.Www.Assets.C133_page_partial	propext, Classical.choice, Quot.sound
C133	Memar.Www.Assets.C133_stale_violated	propext, Classical.choice, Quot.sound
C133	Memar.Www.Assets.C133_compressed_stale_violated	propext, Classical.choice, Quot.sound
C133	Memar.Www.Assets.C133_page_empty_violated	propext, Classical.choice, Quot.sound
C133	Memar.Www.Assets.C133_landing_partial	propext, Classical.choice, Quot.sound
C133	Memar.Www.Assets.C133_landing_json_violated	propext, Classical.choice, Quot.sound
C133	Memar.Www.Assets.C133_worker	propext, Classical.choice, Quot.sound
C133	Memar.Www.Assets.C133_style_partial	propext, Classical.choice, Quot.sound
C133	Memar.Www.Assets.C133_reload_violated	propext, Classical.choice, Quot.sound
C133	Memar.Www.Assets.C133_substring_violated	propext, Classical.choice, Quot.sound
C134	Memar.Www.Assets.C134_compress	propext, Classical.choice, Quot.sound
C135	Memar.GoParser.C135_fields	propext, Quot.sound
C135	Memar.GoParser.C135_names	propext
C135	Memar.GoParser.C135_terminates	propext, Quot.sound
C135	Memar.GoParser.C135_functions	propext, Classical.choice, Quot.sound
C135	Memar.GoParser.C135_types	propext, Classical.choice, Quot.sound
C135	Memar.GoParser.C135_imports	propext, Classical.choice, Quot.sound
C135	Memar.GoParser.C135_error	propext, Classical.choice, Quot.sound
C135	Memar.GoParser.C135_init	
C135	Memar.GoParser.C135_base	propext, Classical.choice, Quot.sound
C135	Memar.GoParser.C135_base_empty	propext, Classical.choice, Quot.sound
C135	Memar.GoParser.C135_error_iff	propext, Classical.choice, Quot.sound
C136	Memar.Tcp.OverIp.C136_isolated	propext, Quot.sound
C136	Memar.Tcp.OverIp.C136_no_service	propext, Quot.sound
C137	Memar.Log.C137_make	
C137	Memar.Log.C137_caller	propext, Classical.choice, Quot.sound
C137	Memar.Log.C137_no_panic	propext
C137	Memar.Log.C137_levels	propext, Quot.sound
C137	Memar.Log.C137_level_values	propext
C138	Memar.Chapar.C138_send	propext, Quot.sound
C138	Memar.Chapar.C138_static_length	propext, Quot.sound
C138	Memar.Chapar.C138_register	propext
C139	Memar.Net.Frames.C139_call	propext, Classical.choice, Quot.sound
C139	Memar.Net.Frames.C139_error	propext, Classical.choice, Quot.sound
C139	Memar.Net.Frames.C139_padding	propext, Classical.choice, Quot.sound
C140	Memar.Http.C140_request_reads_only_its_own_use	propext, Classical.choice, Quot.sound
C140	Memar.Http.C140_first_use_writes_its_uri	propext, Classical.choice, Quot.sound
C140	Memar.Http.C140_response_reads_only_its_own_use	propext, Quot.sound
C140	Memar.Http.C140_body_passes_on	
C141	Memar.Tcp.C141_keep_alive_reset_then_init	propext
C141	Memar.Tcp.C141_user_timeout_init	
C141	Memar.Tcp.C141_user_timeout_reset	propext
C141	Memar.Tcp.C141_timing_reset	propext
C141	Memar.Tcp.C141_reset_values	propext
C142	Memar.Json.C142_decode	propext
C142	Memar.Json.C142_write_to	propext
C142	Memar.Json.C142_array	propext, Classical.choice, Quot.sound
C142	Memar.Json.C142_array_minified	propext, Quot.sound
C142	Memar.Json.C142_array_damaged	propext, Quot.sound
C142	Memar.Json.C142_array_null	propext, Classical.choice, Quot.sound
C142	Memar.Json.C142_float_minified	propext
C142	Memar.Json.C142_token_once	propext
C142	Memar.Json.C142_encode	propext
C143	Memar.Timer.Queue.C143_verify_exact	propext, Classical.choice, Quot.sound
C143	Memar.Timer.Queue.C143_verify_passes	propext, Classical.choice, Quot.sound
C144	Memar.Timer.Queue.C144_one_signal	propext, Classical.choice, Quot.sound
C144	Memar.Timer.Queue.C144_signals_are_firings	propext, Classical.choice, Quot.sound
C144	Memar.Timer.Queue.C144_new_timer	propext, Classical.choice, Quot.sound
C145	Memar.Minify.C145_html	propext, Classical.choice, Quot.sound
C145	Memar.Minify.C145_html_text	propext, Classical.choice, Quot.sound
C145	Memar.Minify.C145_codec	propext, Classical.choice, Quot.sound
C146	Memar.Command.C146_visits	propext
C146	Memar.Command.C146_visit_read	propext, Classical.choice, Quot.sound
C146	Memar.Command.C146_args	propext, Classical.choice, Quot.sound
C146	Memar.Command.C146_again	
C146	Memar.Command.C146_short_path	propext, Quot.sound
C146	Memar.Command.C146_test_file	propext, Classical.choice, Quot.sound
C147	Memar.Timer.Queue.C147_sleep_woken	propext, Classical.choice, Quot.sound
C147	Memar.Timer.Queue.C147_wakes	propext, Classical.choice, Quot.sound
C147	Memar.Timer.Queue.C147_ran	propext, Classical.choice, Quot.sound
C147	Memar.Timer.Queue.C147_sleep	propext, Classical.choice, Quot.sound
C148	Memar.Gui.C148_request	propext, Classical.choice, Quot.sound
C148	Memar.Gui.C148_file	propext, Classical.choice, Quot.sound
C148	Memar.Gui.C148_default_name	propext, Classical.choice, Quot.sound
C148	Memar.Gui.C148_texts	propext, Classical.choice, Quot.sound
C148	Memar.Gui.C148_new_texts	propext, Classical.choice, Quot.sound
C149	Memar.Timer.WheelStop.C149_stop_waiting	propext
C149	Memar.Timer.WheelStop.C149_stop_ends	propext
C149	Memar.Timer.WheelStop.C149_answer	propext, Quot.sound
C150	Memar.Crypto.C150_round_trip_partial	
C150	Memar.Crypto.C150_secrecy_violated	
C150	Memar.Crypto.C150_tampering_violated	
C150	Memar.Crypto.C150_key_violated	
C150	Memar.Crypto.C150_application_keys_violated	
C150	Memar.Crypto.C150_round_keys_violated	propext
C151	Memar.Identifier.C151_text	
C151	Memar.Identifier.C151_random	propext, Quot.sound
C151	Memar.Identifier.C151_short_text	propext, Quot.sound
C151	Memar.Identifier.C151_equal	propext
C152	Memar.Gui.Registry.C152_register_violated	
C152	Memar.Gui.Registry.C152_registry_partial	propext
C152	Memar.Gui.Registry.C152_navigate_violated	
C153	Memar.Os.C153_files_partial	propext, Quot.sound
C153	Memar.Os.C153_order_violated	propext, Quot.sound
C153	Memar.Os.C153_same_time_partial	propext, Quot.sound
C154	Memar.Operation.C154_check	propext, Quot.sound
C154	Memar.Operation.C154_mix	propext, Quot.sound
C154	Memar.Operation.C154_set	propext, Quot.sound
C154	Memar.Operation.C154_all_none	propext, Classical.choice, Quot.sound
C154	Memar.Operation.C154_named	propext, Classical.choice, Quot.sound
C155	Memar.Time.Earth.C155_seconds	propext, Classical.choice, Quot.sound
C155	Memar.Time.Earth.C155_units	propext, Classical.choice, Quot.sound
C155	Memar.Time.Earth.C155_constants	
C156	Memar.Uri.C156_read	propext, Quot.sound
C156	Memar.Uri.C156_last	propext, Quot.sound
C156	Memar.Uri.C156_write	propext, Classical.choice, Quot.sound
C156	Memar.Uri.C156_write_again	propext, Classical.choice, Quot.sound
C157	Memar.ErrorKind.C157_kind_partial	propext
C157	Memar.ErrorKind.C157_wrapped_violated	propext
C158	Memar.Net.Gp.C158_init	
C158	Memar.Net.Gp.C158_link_send	
C158	Memar.Net.Gp.C158_connection_addresses	
C159	Memar.Http.C159_text_lines	propext, Classical.choice, Quot.sound
C159	Memar.Http.C159_body_length	propext, Classical.choice, Quot.sound
C159	Memar.Http.C159_content_type	propext, Classical.choice, Quot.sound
C159	Memar.Http.C159_get_expire	
C159	Memar.Http.C159_set_expire	
C160	Memar.Registry.Types.C160_compress_lookups	propext, Classical.choice, Quot.sound
C160	Memar.Registry.Types.C160_builtin	propext, Classical.choice, Quot.sound
C160	Memar.Registry.Types.C160_builtin_names	propext, Classical.choice, Quot.sound
C161	Memar.Math.C161_equal_integers	propext, Quot.sound
C161	Memar.Math.C161_equal_floats	propext, Classical.choice, Quot.sound
C161	Memar.Math.C161_equal_floats_equivalence	propext, Classical.choice, Quot.sound
C161	Memar.Math.C161_general_reader	propext, Classical.choice, Quot.sound
C161	Memar.Math.C161_general_reader_refuses	propext, Quot.sound
C161	Memar.Math.C161_float_text	propext
C162	Memar.Json.C162_int32	propext, Classical.choice, Quot.sound
C162	Memar.Json.C162_numbers_base64	propext, Classical.choice, Quot.sound
C162	Memar.Json.C162_numbers_base64_room	propext, Classical.choice, Quot.sound
C162	Memar.Json.C162_float_round_trip	propext
C162	Memar.Json.C162_runtime_marshal	propext
C162	Memar.Json.C162_runtime_round_trip	propext
C162	Memar.Json.C162_reset_token	propext
C162	Memar.Json.C162_reset_fresh	
C163	Memar.Www.C163_all_languages	propext, Classical.choice, Quot.sound
C163	Memar.Www.C163_each_language	propext, Classical.choice, Quot.sound
C163	Memar.Www.C163_reload	propext, Classical.choice, Quot.sound
C163	Memar.Www.C163_init	
C164	Memar.Compress.C164_compressor_read_only	
C164	Memar.Compress.C164_decompressor_answers	propext, Quot.sound
C164	Memar.Compress.C164_encode	propext, Quot.sound
C164	Memar.Compress.C164_chain	propext, Quot.sound
C164	Memar.Compress.C164_chain_flate_error	propext, Quot.sound
C164	Memar.Compress.C164_kinds	propext, Classical.choice, Quot.sound
C164	Memar.Compress.C164_made	
C165	Memar.Timer.Queue.C165_start_up_violated	propext, Quot.sound
C165	Memar.Timer.Queue.C165_start_up_partial	propext, Quot.sound
C165	Memar.Timer.Queue.C165_core_number_violated	propext, Quot.sound
C165	Memar.Timer.Queue.C165_unserved_violated	propext, Classical.choice, Quot.sound
C165	Memar.Timer.Queue.C165_no_queue_violated	propext, Classical.choice, Quot.sound
C165	Memar.Timer.Queue.C165_cores_apart_partial	propext, Classical.choice, Quot.sound
C165	Memar.Timer.Queue.C165_served_partial	propext, Classical.choice, Quot.sound
C166	Memar.Time.C166_units	propext, Classical.choice, Quot.sound
C166	Memar.Time.C166_now	
C166	Memar.Time.C166_pass_now	propext, Quot.sound
C167	Memar.Time.C167_now	propext, Classical.choice, Quot.sound
C167	Memar.Time.C167_adds	propext
C167	Memar.Time.C167_swaps	
C167	Memar.Time.C167_compare	propext
C168	Memar.Time.C168_text_is_placeholder_violated	propext, Classical.choice, Quot.sound
C168	Memar.Time.C168_same_text_violated	propext, Classical.choice, Quot.sound
C168	Memar.Time.C168_read_violated	
C168	Memar.Time.C168_atomic_violated	propext, Classical.choice, Quot.sound
C168	Memar.Time.C168_same_object_partial	propext, Classical.choice, Quot.sound
C169	Memar.Os.C169_move_violated	propext
C169	Memar.Os.C169_missing_violated	propext
C169	Memar.Os.C169_wipe_violated	propext
C169	Memar.Os.C169_wipe_partial	propext, Classical.choice, Quot.sound
C169	Memar.Os.C169_directories_violated	
C169	Memar.Os.C169_hidden_partial	propext
C169	Memar.Os.C169_hidden_directory_violated	propext, Quot.sound
C170	Memar.Os.C170_shutdown_partial	propext, Quot.sound
C170	Memar.Os.C170_never_called_violated	propext, Quot.sound
C170	Memar.Os.C170_registered_partial	propext, Classical.choice, Quot.sound
C170	Memar.Os.C170_other_header_violated	
C171	Memar.Tcp.C171_mss_partial	propext, Quot.sound
C171	Memar.Tcp.C171_one_byte_violated	propext, Classical.choice, Quot.sound
C171	Memar.Tcp.C171_four_bytes_violated	propext, Classical.choice, Quot.sound
C171	Memar.Tcp.C171_announced_violated	propext, Classical.choice, Quot.sound
C172	Memar.Tcp.C172_ports	
C173	Memar.Codec.C173_into_socket_violated	propext, Quot.sound
C173	Memar.Codec.C173_into_json_partial	propext, Quot.sound
C173	Memar.Codec.C173_from_uri_partial	propext, Quot.sound
C173	Memar.Codec.C173_refused	propext, Quot.sound
C173	Memar.Codec.C173_lost_violated	propext, Quot.sound
C173	Memar.Codec.C173_gunzip_violated	propext, Quot.sound
C173	Memar.Codec.C173_empty_partial	propext, Quot.sound
C173	Memar.Codec.C173_empty_uri_violated	propext, Quot.sound
C174	Memar.Net.Extension.C174_fields_partial	propext
C174	Memar.Net.Extension.C174_next_partial	propext, Quot.sound
C174	Memar.Net.Extension.C174_next_violated	propext, Quot.sound
C174	Memar.Net.Extension.C174_wraps_violated	propext, Quot.sound
C174	Memar.Net.Extension.C174_optional_violated	propext, Classical.choice, Quot.sound
C175	Memar.Timer.Queue.C175_new_tick_partial	propext, Classical.choice, Quot.sound
C175	Memar.Timer.Queue.C175_failed_period_violated	propext, Quot.sound
C176	Memar.Registry.Types.C176_from_text_partial	propext, Quot.sound
C176	Memar.Registry.Types.C176_round_trip_partial	propext, Quot.sound
C176	Memar.Registry.Types.C176_bad_text_violated	propext, Quot.sound
C176	Memar.Registry.Types.C176_parameters_violated	propext, Classical.choice, Quot.sound
C177	Memar.Syllab.C177_bool_violated	propext
C177	Memar.Syllab.C177_bool_partial	propext, Classical.choice, Quot.sound
C177	Memar.Syllab.C177_float32_partial	propext, Classical.choice, Quot.sound
C177	Memar.Syllab.C177_float64_partial	propext, Classical.choice, Quot.sound
C177	Memar.Syllab.C177_float32_violated	propext, Classical.choice, Quot.sound
C177	Memar.Syllab.C177_complex_violated	propext, Quot.sound
C177	Memar.Syllab.C177_complex_get_partial	propext, Classical.choice, Quot.sound
C177	Memar.Syllab.C177_complex_byte_violated	propext, Classical.choice, Quot.sound
C177	Memar.Syllab.C177_fixed_array_getter_violated	propext, Quot.sound
C177	Memar.Syllab.C177_fixed_array_setter	propext, Classical.choice, Quot.sound
C178	Memar.Syllab.C178_short_heap_violated	propext, Quot.sound
C178	Memar.Syllab.C178_short_heap_any_violated	propext, Classical.choice, Quot.sound
C178	Memar.Syllab.C178_room_partial	propext, Classical.choice, Quot.sound
C179	Memar.Math.C179_overflow_violated	propext
C179	Memar.Math.C179_trillion_violated	propext
C179	Memar.Math.C179_exact_iff_fits_partial	propext, Classical.choice, Quot.sound
C179	Memar.Math.C179_overflow_wraps_violated	propext, Quot.sound
C180	Memar.Http.C180_iteration_stops_at_empty_value_violated	propext, Classical.choice, Quot.sound
C180	Memar.Http.C180_empty_name_reads_empty	propext, Classical.choice, Quot.sound
C180	Memar.Http.C180_walk_iff_partial	propext, Quot.sound
C180	Memar.Http.C180_iteration_stops_at_any_empty_value_violated	propext, Quot.sound
C180	Memar.Http.C180_empty_name_always_empty_violated	propext, Quot.sound
C181	Memar.Http.C181_malformed_query_is_identifier_zero_violated	propext, Classical.choice, Quot.sound
C181	Memar.Http.C181_runs_iff_partial	propext, Classical.choice, Quot.sound
C182	Memar.Http.C182_output_bytes_partial	propext, Quot.sound
C182	Memar.Http.C182_semicolon_survives_violated	propext, Classical.choice, Quot.sound
C182	Memar.Http.C182_name_separators_survive_violated	propext, Classical.choice, Quot.sound
C182	Memar.Http.C182_name_any_byte_survives_violated	propext, Quot.sound
C183	Memar.Pool.C183_cleaned_up_stays_away_partial	propext, Classical.choice, Quot.sound
C183	Memar.Pool.C183_close_race_violated	propext, Quot.sound
C183	Memar.Pool.C183_close_race_any_violated	propext, Quot.sound
C184	Memar.Buffer.C184_read_returns_nothing_violated	propext, Classical.choice, Quot.sound
C184	Memar.Buffer.C184_read_byte_partial	propext, Quot.sound
C184	Memar.Buffer.C184_last_byte_unreadable_violated	propext, Quot.sound
C184	Memar.Buffer.C184_read_at_violated	propext, Quot.sound
C184	Memar.Buffer.C184_set_then_read_violated	propext, Quot.sound
C185	Memar.Validators.C185_checksum_odd_any_violated	propext, Classical.choice, Quot.sound
C185	Memar.Validators.C185_checksum_even_partial	propext, Classical.choice, Quot.sound
C185	Memar.Validators.C185_checksum_odd_violated	propext, Classical.choice, Quot.sound
C185	Memar.Validators.C185_checksum_empty_violated	
C186	Memar.Time.C186_add_moves_instant_partial	propext, Classical.choice, Quot.sound
C186	Memar.Time.C186_add_not_normal_violated	propext, Classical.choice, Quot.sound
C186	Memar.Time.C186_add_goes_back_violated	propext
C187	Memar.Time.C187_before_epoch_any_violated	propext, Classical.choice, Quot.sound
C187	Memar.Time.C187_hour_before_epoch_violated	propext, Classical.choice, Quot.sound
C187	Memar.Time.C187_before_epoch_violated	propext
C187	Memar.Time.C187_hour_bit_partial	propext, Classical.choice, Quot.sound
C187	Memar.Time.C187_hour_constants_violated	propext, Classical.choice, Quot.sound
C188	Memar.Identifier.C188_random_failure_violated	propext, Quot.sound
C188	Memar.Identifier.C188_incremental_violated	propext
C188	Memar.Identifier.C188_id32_violated	propext, Classical.choice, Quot.sound
C188	Memar.Identifier.C188_bad_id_text_violated	propext, Quot.sound
C188	Memar.Identifier.C188_id8	propext, Quot.sound
C188	Memar.Identifier.C188_new8_violated	propext, Quot.sound
C188	Memar.Identifier.C188_newHash8_violated	propext, Quot.sound
C188	Memar.Identifier.C188_new8_partial	propext, Classical.choice, Quot.sound
C188	Memar.Identifier.C188_incremental_any_violated	propext, Quot.sound
C189	Memar.Net.Tcp.C189_data_offset_accumulates	propext, Classical.choice, Quot.sound
C189	Memar.Net.Tcp.C189_data_offset_partial	propext, Classical.choice, Quot.sound
C189	Memar.Net.Tcp.C189_data_offset_violated	propext, Classical.choice, Quot.sound
C189	Memar.Net.Tcp.C189_flag_part_one_violated	propext, Classical.choice, Quot.sound
C190	Memar.Net.Tcp.C190_small_offset_violated	propext, Classical.choice, Quot.sound
C190	Memar.Net.Tcp.C190_options_partial	propext, Classical.choice, Quot.sound
C190	Memar.Net.Tcp.C190_payload_roundtrip_partial	propext, Classical.choice, Quot.sound
C191	Memar.Net.Ipv4.C191_ipv4_short_packet_violated	propext, Quot.sound
C191	Memar.Net.Ipv4.C191_ipv4_options_violated	propext, Quot.sound
C191	Memar.Net.Ipv4.C191_ipv4_version_ihl_partial	propext, Quot.sound
C191	Memar.Net.Ipv4.C191_ipv4_version_violated	propext, Quot.sound
C191	Memar.Net.Ipv4.C191_ipv4_dscp_violated	propext, Classical.choice, Quot.sound
C191	Memar.Net.Ipv4.C191_ipv4_fragment_offset_violated	propext, Classical.choice, Quot.sound
C191	Memar.Net.Ipv4.C191_ipv4_fragment_flags_violated	propext, Classical.choice, Quot.sound
C191	Memar.Net.Ipv4.C191_ipv4_ecn_violated	propext, Classical.choice, Quot.sound
C191	Memar.Net.Ipv6.C191_ipv6_first_word_partial	propext, Quot.sound
C191	Memar.Net.Ipv6.C191_ipv6_version_violated	propext, Quot.sound
C191	Memar.Net.Ipv6.C191_ipv6_traffic_class_violated	propext, Quot.sound
C191	Memar.Net.Ipv6.C191_ipv6_flow_label_violated	propext, Classical.choice, Quot.sound
C191	Memar.Net.Udp.C191_udp_set_length_violated	propext, Classical.choice, Quot.sound
C191	Memar.Net.Udp.C191_udp_payload_violated	propext, Quot.sound
C191	Memar.Net.Udp.C191_udp_payload_partial	propext, Classical.choice, Quot.sound
C191	Memar.Net.Gp.C191_gp_following_frame_violated	propext, Quot.sound
C192	Memar.Chapar.C192_checked_panic_violated	propext, Quot.sound
C192	Memar.Chapar.C192_header_violated	propext, Quot.sound
C192	Memar.Chapar.C192_broadcast_path_violated	propext
C192	Memar.Chapar.C192_init_broadcast_violated	propext, Quot.sound
C192	Memar.Chapar.C192_safe_hops_partial	propext, Classical.choice, Quot.sound
C193	Memar.Registry.Errors.C193_zero_violated	propext
C193	Memar.Registry.Errors.C193_refused_in_dev_mode_partial	propext, Classical.choice, Quot.sound
C194	Memar.Registry.Services.C194_indexes_agree_partial	propext, Classical.choice, Quot.sound
C194	Memar.Registry.Services.C194_indexes_violated	propext, Classical.choice, Quot.sound
C194	Memar.Registry.Services.C194_duplicate_unreported_violated	propext
C194	Memar.Registry.Services.C194_services_list_violated	propext, Classical.choice, Quot.sound
C195	Memar.Command.C195_empty_value_violated	propext, Classical.choice, Quot.sound
C195	Memar.Command.C195_abbreviation_violated	propext, Classical.choice, Quot.sound
C195	Memar.Command.C195_settable_partial	propext, Classical.choice, Quot.sound
C196	Memar.Json.C196_int_partial	propext, Classical.choice, Quot.sound
C196	Memar.Json.C196_int_violated	propext, Classical.choice, Quot.sound
C196	Memar.Json.C196_quote_violated	propext, Classical.choice, Quot.sound
C196	Memar.Json.C196_encode_empty_violated	propext, Quot.sound
C196	Memar.Json.C196_decode_empty_violated	propext, Classical.choice, Quot.sound
C196	Memar.Json.C196_min_empty_violated	propext, Classical.choice, Quot.sound
C196	Memar.Json.C196_stale_token_violated	propext
C196	Memar.Json.C196_list32_minified_violated	propext, Classical.choice, Quot.sound
C196	Memar.Json.C196_list32_minified_partial	propext, Quot.sound
C196	Memar.Json.C196_unknown_member	propext, Classical.choice, Quot.sound
C196	Memar.Json.C196_unknown_member_violated	propext
C196	Memar.Json.C196_unknown_member_cut_violated	propext
C196	Memar.Json.C196_list32_cut_off_violated	propext, Quot.sound
C197	Memar.Www.C197_html_partial	propext, Classical.choice, Quot.sound
C197	Memar.Www.C197_html_violated	propext, Classical.choice, Quot.sound
C197	Memar.Www.C197_panic_violated	propext, Classical.choice, Quot.sound
C198	Memar.Math.C198_signed_violated	propext, Classical.choice, Quot.sound
C198	Memar.Math.C198_same_value_partial	propext, Classical.choice, Quot.sound
C199	Memar.Http.C199_content_type_parts	propext, Classical.choice, Quot.sound
C199	Memar.Http.C199_content_type_values	propext, Classical.choice, Quot.sound
C200	Memar.Timer.Queue.C200_failed_tick_inert_partial	propext, Classical.choice, Quot.sound
C200	Memar.Timer.Queue.C200_failed_tick_any_violated	propext, Quot.sound
C200	Memar.Timer.Queue.C200_failed_tick_violated	propext, Classical.choice, Quot.sound
C201	Memar.Pool.C201_idle_item_withheld_violated	propext, Quot.sound
C201	Memar.Pool.C201_get_available_partial	propext, Quot.sound
C201	Memar.Pool.C201_idle_item_withheld_any_violated	propext, Quot.sound
C202	Memar.Buffer.C202_grow_len_partial	propext, Quot.sound
C202	Memar.Buffer.C202_grow_len_nil_violated	propext, Quot.sound
C202	Memar.Buffer.C202_grow_len_stale_violated	propext, Quot.sound
C202	Memar.Buffer.C202_grow_len_zeros_partial	propext, Quot.sound
C203	Memar.Net.Ipv6Addr.C203_text_violated	propext, Classical.choice, Quot.sound
C203	Memar.Net.Ipv6Addr.C203_unspecified_violated	propext, Classical.choice, Quot.sound
C203	Memar.Net.Ipv6Addr.C203_short_text_violated	propext, Quot.sound
C203	Memar.Net.Ipv6Addr.C203_unspecified_partial	propext, Classical.choice, Quot.sound
C204	Memar.Chapar.C204_alternative_lost_violated	propext, Classical.choice, Quot.sound
C204	Memar.Chapar.C204_path_from_peer_violated	propext, Quot.sound
C204	Memar.Chapar.C204_write_frame_violated	propext, Quot.sound
C204	Memar.Chapar.C204_change_path_partial	propext, Classical.choice, Quot.sound
C204	Memar.Chapar.C204_change_path_violated	propext, Classical.choice, Quot.sound
C205	Memar.Command.Cmd.C205_help_violated	propext, Classical.choice, Quot.sound
C205	Memar.Command.C205_help_by_word_partial	propext, Classical.choice, Quot.sound
C206	Memar.File.C206_codec_violated	
C206	Memar.File.C206_unmarshal_partial	propext, Quot.sound
C206	Memar.File.C206_name_partial	propext, Quot.sound
C206	Memar.File.C206_dot_violated	propext, Quot.sound
C206	Memar.File.C206_unmarshal_violated	
C206	Memar.File.C206_is_directory_violated	propext, Classical.choice, Quot.sound
C206	Memar.File.C206_parts_partial	propext, Quot.sound
C206	Memar.File.C206_parts_violated	propext
C206	Memar.File.C206_parts_exact_violated	propext, Classical.choice, Quot.sound
C207	Memar.File.C207_bare_name_violated	propext, Classical.choice, Quot.sound
C207	Memar.File.C207_above_root_violated	propext, Classical.choice, Quot.sound
C207	Memar.File.C207_up_partial	propext, Classical.choice, Quot.sound
C208	Memar.Www.C208_order_exact_violated	propext, Classical.choice, Quot.sound
C208	Memar.Www.C208_first_line_violated	propext, Classical.choice, Quot.sound
C208	Memar.Www.C208_order_violated	propext, Classical.choice, Quot.sound
C208	Memar.Www.C208_order_partial	propext, Classical.choice, Quot.sound
C208	Memar.Www.C208_recursive_violated	propext, Quot.sound
C209	Memar.Www.C209_html_template_violated	propext, Classical.choice, Quot.sound
C209	Memar.Www.C209_html_js_violated	propext, Classical.choice, Quot.sound
C209	Memar.Www.C209_html_dropped_violated	propext, Classical.choice, Quot.sound
C209	Memar.Www.C209_locale_partial	propext, Classical.choice, Quot.sound
C210	Memar.Tcp.C210_probe_limit_violated	propext, Classical.choice, Quot.sound
C210	Memar.Tcp.C210_late_violated	propext, Classical.choice, Quot.sound
C210	Memar.Tcp.C210_user_timeout_violated	propext, Classical.choice, Quot.sound
C210	Memar.Tcp.C210_probes_partial	propext, Classical.choice, Quot.sound
C211	Memar.Pool.C211_refused_init_revives_violated	propext
C211	Memar.Pool.C211_refused_close_kills_violated	propext
C211	Memar.Pool.C211_refusal_violated	propext
C211	Memar.Pool.C211_refusal_keeps_items_partial	
C212	Memar.Uri.C212_panics_iff_partial	propext, Classical.choice, Quot.sound
C212	Memar.Uri.C212_trailing_colon_violated	propext, Classical.choice, Quot.sound
C213	Memar.Uri.C213_semicolon_any_violated	propext, Classical.choice, Quot.sound
C213	Memar.Uri.C213_all_good_partial	propext, Classical.choice, Quot.sound
C213	Memar.Uri.C213_colon_refused_violated	propext, Classical.choice, Quot.sound
C213	Memar.Uri.C213_semicolon_accepted_violated	propext, Classical.choice, Quot.sound
C213	Memar.Uri.C213_first_error_violated	propext, Classical.choice, Quot.sound
C214	Memar.Uri.C214_initialised_partial	propext, Quot.sound
C214	Memar.Uri.C214_zero_query_violated	
C215	Memar.Http.C215_zero_age_violated	propext, Classical.choice, Quot.sound
C215	Memar.Http.C215_positive_age_partial	propext, Classical.choice, Quot.sound
C216	Memar.Http.C216_second_redirect_violated	propext, Classical.choice, Quot.sound
C216	Memar.Http.C216_error_text	propext, Quot.sound
C216	Memar.Http.C216_error_never_read_back_violated	propext, Classical.choice, Quot.sound
C216	Memar.Http.C216_decimal_error_read_partial	propext, Classical.choice, Quot.sound
C217	Memar.Http.C217_empty_response_chunked_violated	propext, Classical.choice, Quot.sound
C217	Memar.Http.C217_double_length_violated	propext, Classical.choice, Quot.sound
C217	Memar.Http.C217_stated_once_partial	propext, Classical.choice, Quot.sound
C218	Memar.Convert.C218_string_immutable_violated	propext, Quot.sound
C218	Memar.Convert.C218_kept_iff_partial	propext, Quot.sound
C219	Memar.Os.C219_paging_violated	propext
C219	Memar.Os.C219_page_of_all_partial	propext, Classical.choice, Quot.sound
C220	Memar.Os.C220_append_prepend_partial	propext
C220	Memar.Os.C220_append_lost_violated	propext
C220	Memar.Os.C220_save_once_partial	propext
C220	Memar.Os.C220_save_path_violated	propext, Quot.sound
C220	Memar.Os.C220_compress_type_violated	propext, Classical.choice, Quot.sound
C220	Memar.Os.C220_delete_file_partial	propext, Classical.choice, Quot.sound
C221	Memar.Net.Socket.C221_timeout_ignored_violated	propext
C221	Memar.Net.Socket.C221_send_never_returns_violated	propext
C221	Memar.Net.Socket.C221_send_nothing_partial	
C221	Memar.Net.Socket.C221_close_violated	
C221	Memar.Net.Socket.C221_std_write_violated	propext
C222	Memar.App.C222_change_dropped_violated	propext, Quot.sound
C222	Memar.App.C222_never_stops_violated	propext
C222	Memar.App.C222_init_error_dropped_violated	propext
C222	Memar.App.C222_init_partial	propext
C222	Memar.App.C222_stop_on_signal_partial	propext
C222	Memar.App.C222_stop_announced_twice_violated	propext, Quot.sound
C223	Memar.App.C223_change_missed_violated	propext, Quot.sound
C223	Memar.App.C223_always_awaited_partial	propext, Classical.choice, Quot.sound
C224	Memar.Time.C224_by_nano_whole_partial	propext, Classical.choice, Quot.sound
C224	Memar.Time.C224_by_nano_first_second_partial	propext, Classical.choice, Quot.sound
C224	Memar.Time.C224_by_nano_short_violated	propext, Classical.choice, Quot.sound
C224	Memar.Time.C224_by_nano_mixed_violated	propext, Classical.choice, Quot.sound
C224	Memar.Time.C224_since_violated	propext, Classical.choice, Quot.sound
C225	Memar.Time.C225_single_days_partial	propext, Classical.choice, Quot.sound
C225	Memar.Time.C225_sets_unnamed_violated	propext, Quot.sound
C226	Memar.Syllab.Gen.C226_left_out_violated	propext, Classical.choice, Quot.sound
C226	Memar.Syllab.Gen.C226_embedded_violated	propext, Quot.sound
C226	Memar.Syllab.Gen.C226_array_length_violated	propext
C226	Memar.Syllab.Gen.C226_one_call_each_partial	propext, Classical.choice, Quot.sound
C227	Memar.Www.Assets.C227_no_error_partial	propext, Classical.choice, Quot.sound
C227	Memar.Www.Assets.C227_unreported_violated	propext, Classical.choice, Quot.sound
C228	Memar.GoParser.C228_test_files_violated	propext, Classical.choice, Quot.sound
C228	Memar.GoParser.C228_recursive_violated	propext, Classical.choice, Quot.sound
C228	Memar.GoParser.C228_unnamed_violated	propext, Classical.choice, Quot.sound
C228	Memar.GoParser.C228_groups_violated	propext, Classical.choice, Quot.sound
C228	Memar.GoParser.C228_results_violated	propext, Classical.choice, Quot.sound
C228	Memar.GoParser.C228_methods_violated	propext, Classical.choice, Quot.sound
C228	Memar.GoParser.C228_parsed_iff_partial	propext, Classical.choice, Quot.sound
C229	Memar.Net.Extension.C229_signature_id_violated	propext, Classical.choice, Quot.sound
C229	Memar.Net.Frames.C229_data_partial	propext, Classical.choice, Quot.sound
C229	Memar.Net.Frames.C229_offset_violated	propext, Classical.choice, Quot.sound
C229	Memar.Net.Frames.C229_data_lost_violated	
C229	Memar.Net.Frames.C229_open_violated	propext, Quot.sound
C229	Memar.Net.Frames.C229_open_next_violated	propext, Quot.sound
C229	Memar.Net.Frames.C229_open_partial	propext, Classical.choice, Quot.sound
C229	Memar.Net.Frames.C229_signature_violated	propext, Quot.sound
C229	Memar.Net.Frames.C229_short_length_violated	propext, Quot.sound
C229	Memar.Net.Extension.C229_data_signature_violated	propext, Quot.sound
C229	Memar.Net.Frames.C229_open_compress	propext, Quot.sound
C230	Memar.Http.C230_reset_keeps_lines_violated	propext, Classical.choice, Quot.sound
C230	Memar.Http.C230_reused_request_loses_its_uri_violated	propext, Classical.choice, Quot.sound
C230	Memar.Http.C230_no_body_is_empty_partial	
C230	Memar.Http.C230_no_body_drops_data_violated	
C231	Memar.Json.C231_decode_count_violated	
C231	Memar.Json.C231_read_from_violated	
C231	Memar.Json.C231_write_error_violated	propext
C231	Memar.Json.C231_array_length_violated	propext, Quot.sound
C231	Memar.Json.C231_float_partial	propext, Quot.sound
C231	Memar.Json.C231_float_sign_violated	propext, Quot.sound
C232	Memar.Timer.Queue.C232_move_armed_violated	propext, Classical.choice, Quot.sound
C232	Memar.Timer.Queue.C232_move_to_itself_violated	
C232	Memar.Timer.Queue.C232_reinit_partial	propext, Classical.choice, Quot.sound
C232	Memar.Timer.Queue.C232_move_stopped_violated	propext, Classical.choice, Quot.sound
C233	Memar.Timer.Queue.C233_deinit_twice_violated	propext, Classical.choice, Quot.sound
C233	Memar.Timer.Queue.C233_deinit_after_firing_violated	
C233	Memar.Timer.Queue.C233_deinit_partial	propext, Classical.choice, Quot.sound
C233	Memar.Timer.Queue.C233_restart_violated	propext, Classical.choice, Quot.sound
C233	Memar.Timer.Queue.C233_reset_after_reinit_violated	propext, Classical.choice, Quot.sound
C233	Memar.Timer.Queue.C233_reinit_idle_violated	
C234	Memar.Minify.C234_words_joined_violated	propext, Classical.choice, Quot.sound
C234	Memar.Minify.C234_idempotent_violated	propext, Classical.choice, Quot.sound
C234	Memar.Minify.C234_error_dropped_violated	propext
C234	Memar.Minify.C234_css_lost_violated	propext
C234	Memar.Minify.C234_one_line_partial	propext, Classical.choice, Quot.sound
C234	Memar.Minify.C234_rejected_kept_partial	propext
C235	Memar.Command.C235_nflag_violated	propext, Classical.choice, Quot.sound
C235	Memar.Command.C235_root_violated	propext, Quot.sound
C235	Memar.Command.C235_all_set_partial	propext, Classical.choice, Quot.sound
C236	Memar.Timer.Queue.C236_next_violated	propext, Classical.choice, Quot.sound
C236	Memar.Timer.Queue.C236_next_stopped_violated	propext, Classical.choice, Quot.sound
C236	Memar.Timer.Queue.C236_next_partial	propext, Classical.choice, Quot.sound
C236	Memar.Timer.Queue.C236_next_exact_partial	propext, Classical.choice, Quot.sound
C236	Memar.Timer.Queue.C236_loop_idle_violated	propext, Classical.choice, Quot.sound
C236	Memar.Timer.Queue.C236_loop_new_timer_violated	propext, Classical.choice, Quot.sound
C236	Memar.Timer.Queue.C236_loop_on_time_partial	propext, Classical.choice, Quot.sound
C236	Memar.Timer.Queue.C236_tick_on_time_partial	propext, Classical.choice, Quot.sound
C236	Memar.Timer.Queue.C236_tick_late_violated	propext, Classical.choice, Quot.sound
C236	Memar.Timer.Queue.C236_tick_very_late_violated	propext, Classical.choice, Quot.sound
C237	Memar.Timer.WheelStop.C237_stop_busy_violated	propext
C237	Memar.Timer.WheelStop.C237_stop_late_tick_violated	propext
C237	Memar.Timer.WheelStop.C237_stop_last_partial	propext, Quot.sound
C237	Memar.Timer.WheelStop.C237_stop_before_start_violated	propext
C237	Memar.Timer.WheelStop.C237_restart_violated	propext
C237	Memar.Timer.WheelStop.C237_stop_twice_violated	propext
C238	Memar.Identifier.C238_read_violated	
C238	Memar.Identifier.C238_random_failure_violated	propext
C238	Memar.Identifier.C238_v5_violated	propext, Classical.choice, Quot.sound
C238	Memar.Identifier.C238_v1_violated	propext, Classical.choice, Quot.sound
C238	Memar.Identifier.C238_same_value_partial	propext, Quot.sound
C238	Memar.Identifier.C238_nil_violated	propext
C239	Memar.Time.Earth.C239_short_partial	propext, Classical.choice, Quot.sound
C239	Memar.Time.Earth.C239_nano_violated	propext, Classical.choice, Quot.sound
C239	Memar.Time.Earth.C239_nano_wrong_violated	propext, Classical.choice, Quot.sound
C240	Memar.Uri.C240_unchanged_partial	propext, Quot.sound
C240	Memar.Uri.C240_set_violated	propext, Quot.sound
C240	Memar.Uri.C240_decode_violated	
C241	Memar.Http.C241_two_lengths_violated	propext, Classical.choice, Quot.sound
C241	Memar.Http.C241_bad_length_violated	propext, Classical.choice, Quot.sound
C241	Memar.Http.C241_large_length_violated	propext, Classical.choice, Quot.sound
C241	Memar.Http.C241_cookies_partial	propext, Classical.choice, Quot.sound
C241	Memar.Http.C241_last_coding_partial	propext, Classical.choice, Quot.sound
C241	Memar.Http.C241_bad_expire_violated	
C242	Memar.Registry.Types.C242_media_lookups_partial	propext, Classical.choice, Quot.sound
C242	Memar.Registry.Types.C242_media_not_found_violated	propext, Classical.choice, Quot.sound
C242	Memar.Registry.Types.C242_listed_twice_violated	propext, Classical.choice, Quot.sound
C243	Memar.Math.C243_equal_sizes_violated	propext, Classical.choice, Quot.sound
C243	Memar.Math.C243_equal_signed_partial	propext, Classical.choice, Quot.sound
C243	Memar.Math.C243_nan_violated	propext, Classical.choice, Quot.sound
C243	Memar.Math.C243_unknown_base_violated	
C243	Memar.Math.C243_float_error_violated	propext
C244	Memar.Json.C244_byte_order_violated	propext, Quot.sound
C244	Memar.Json.C244_not_numbers_violated	propext, Classical.choice, Quot.sound
C244	Memar.Json.C244_len_partial	
C244	Memar.Json.C244_len_violated	
C245	Memar.Www.C245_rounds_partial	propext, Classical.choice, Quot.sound
C245	Memar.Www.C245_short_language_violated	propext, Classical.choice, Quot.sound
C245	Memar.Www.C245_plain_file_violated	propext, Classical.choice, Quot.sound
C245	Memar.Www.C245_no_texts_violated	propext, Classical.choice, Quot.sound
C245	Memar.Www.C245_reload_end_violated	propext, Classical.choice, Quot.sound
C246	Memar.Compress.C246_gzip_accepts_violated	propext, Quot.sound
C246	Memar.Compress.C246_chain_gzip_error_violated	propext, Quot.sound
C246	Memar.Compress.C246_refused_iff_partial	propext, Quot.sound
C246	Memar.Compress.C246_failing_source_partial	propext, Quot.sound
C247	Memar.Time.C247_local_epoch_violated	
C247	Memar.Time.C247_since_unix_epoch_partial	propext, Classical.choice, Quot.sound
C247	Memar.Time.C247_calendar_year_violated	propext, Quot.sound
C247	Memar.Time.C247_epoch_violated	propext, Classical.choice, Quot.sound
C247	Memar.Time.C247_local_violated	propext, Quot.sound
C248	Memar.Time.C248_alone_partial	propext
C248	Memar.Time.C248_read_store_violated	propext
C249	Memar.Http.C249_empty_value_lost_violated	propext, Classical.choice, Quot.sound
C249	Memar.Http.C249_walk_reports_all_but_last_partial	propext, Classical.choice, Quot.sound
C249	Memar.Http.C249_last_cookie_lost_violated	propext, Classical.choice, Quot.sound
C249	Memar.Http.C249_hostile_line_panics_violated	propext, Classical.choice, Quot.sound
C249	Memar.Http.C249_addCookie_always_panics_violated	propext, Classical.choice, Quot.sound
C249	Memar.Http.C249_walk_panics_exactly_violated	propext, Classical.choice, Quot.sound
C250	Memar.Tcp.C250_enable_partial	propext
C250	Memar.Tcp.C250_durations_violated	propext
C250	Memar.Tcp.C250_close_sending_violated	
C251	Memar.Uri.C251_host_exact_violated	propext, Classical.choice, Quot.sound
C251	Memar.Uri.C251_roundtrip_partial	propext, Classical.choice, Quot.sound
C251	Memar.Uri.C251_host_violated	propext, Classical.choice, Quot.sound
C252	Memar.Http.C252_numeric_domain_redirects_to_itself_violated	propext, Classical.choice, Quot.sound
C252	Memar.Http.C252_passes_iff_partial	propext, Classical.choice, Quot.sound
C253	Memar.Time.C253_fits_partial	propext, Classical.choice, Quot.sound
C253	Memar.Time.C253_overflow_any_violated	propext, Classical.choice, Quot.sound
C253	Memar.Time.C253_overflow_violated	propext
C254	Memar.Identifier.Rfc4122.C254_parse_violated	propext, Quot.sound
C254	Memar.Identifier.Rfc4122.C254_parse_canonical_violated	propext, Classical.choice, Quot.sound
C254	Memar.Identifier.Rfc4122.C254_parse_short_violated	propext, Quot.sound
C254	Memar.Identifier.Rfc4122.C254_utility_parse_violated	
C254	Memar.Identifier.Rfc4122.C254_parse_exact_partial	propext, Classical.choice, Quot.sound
C255	Memar.Net.Ipv4Addr.C255_trailing_text_violated	propext, Classical.choice, Quot.sound
C255	Memar.Net.Ipv4Addr.C255_bad_text_violated	propext, Classical.choice, Quot.sound
C255	Memar.Net.Ipv4Addr.C255_octets_partial	propext, Classical.choice, Quot.sound
C255	Memar.Net.Ipv4Addr.C255_bad_text_any_violated	propext, Classical.choice, Quot.sound
C256	Memar.Event.C256_reentrant_violated	propext, Quot.sound
C256	Memar.Event.C256_stuck_iff_partial	propext, Quot.sound
C257	Memar.Http.C257_pragma_idempotent_partial	propext, Classical.choice, Quot.sound
C257	Memar.Http.C257_empty_cache_control_violated	propext, Classical.choice, Quot.sound
C258	Memar.Os.C258_order_violated	propext, Classical.choice, Quot.sound
C258	Memar.Os.C258_same_size_partial	propext, Classical.choice, Quot.sound
C258	Memar.Os.C258_outside_violated	propext, Quot.sound
C258	Memar.Os.C258_order_any_violated	propext, Classical.choice, Quot.sound
C259	Memar.Http.C259_sorted_by_quality_partial	propext, Classical.choice, Quot.sound
C259	Memar.Http.C259_any_parameter_is_quality_violated	propext, Classical.choice, Quot.sound
C259	Memar.Http.C259_non_numeric_parameter_drops_media_violated	propext, Classical.choice, Quot.sound
C259	Memar.Http.C259_absent_header_violated	propext
C260	Memar.Http.C260_host_line_not_parsed_violated	propext, Classical.choice, Quot.sound
C260	Memar.Http.C260_named_in_target_partial	propext, Classical.choice, Quot.sound
C261	Memar.Http.C261_bidirectional_partial	propext
C261	Memar.Http.C261_unidirectional_partial	propext
C261	Memar.Http.C261_timeout_returns_nothing_violated	propext
C261	Memar.Http.C261_unsent_reported_as_sent_violated	propext
C261	Memar.Http.C261_stream_leaked_violated	propext
C261	Memar.Http.C261_srpc_partial	propext
C261	Memar.Http.C261_srpc_one_way_partial	propext, Quot.sound
C261	Memar.Http.C261_srpc_one_way_unsent_violated	propext, Quot.sound
C262	Memar.Os.C262_nested_file_violated	propext, Classical.choice, Quot.sound
C262	Memar.Os.C262_one_directory_violated	propext, Quot.sound
C262	Memar.Os.C262_plain_name_partial	propext, Classical.choice, Quot.sound
C262	Memar.Os.C262_slash_violated	propext, Classical.choice, Quot.sound
C263	Memar.Net.Socket.C263_read_write_swapped_violated	propext, Quot.sound
C263	Memar.Net.Socket.C263_set_both_partial	propext, Quot.sound
C263	Memar.Net.Socket.C263_earlier_partial	propext, Quot.sound
C263	Memar.Net.Socket.C263_extended_never_fires_violated	propext, Quot.sound
C263	Memar.Net.Socket.C263_not_armed_violated	propext, Quot.sound
C263	Memar.Net.Socket.C263_no_timeout_violated	propext, Quot.sound
C263	Memar.Net.Socket.C263_write_named_read_violated	propext, Quot.sound
C263	Memar.Net.Socket.C263_announced_partial	propext, Classical.choice, Quot.sound
C263	Memar.Net.Socket.C263_no_limit_stops_partial	propext, Quot.sound
C264	Memar.Syllab.Gen.C264_own_code_partial	propext
C264	Memar.Syllab.Gen.C264_receiver_name_violated	propext, Quot.sound
C264	Memar.Syllab.Gen.C264_order_violated	propext
C264	Memar.Syllab.Gen.C264_value_receiver_violated	propext
C265	Memar.Compress.C265_roundtrip_partial	propext, Quot.sound
C265	Memar.Compress.C265_damaged_violated	propext, Quot.sound
C265	Memar.Compress.C265_not_gzip_violated	propext, Quot.sound
C265	Memar.Compress.C265_unmarshal_violated	propext, Quot.sound
C265	Memar.Compress.C265_gzip_stream_partial	propext, Quot.sound
C265	Memar.Compress.C265_gzip_write_violated	propext, Quot.sound
C265	Memar.Compress.C265_unmarshal_stream_partial	propext, Quot.sound
C265	Memar.Compress.C265_stream_once	propext, Quot.sound
C265	Memar.Compress.C265_read_count_violated	propext
C265	Memar.Compress.C265_gzip_error_violated	propext, Quot.sound
C266	Memar.Log.C266_recover_partial	propext, Quot.sound
C266	Memar.Log.C266_helpers_partial	propext
C266	Memar.Log.C266_fatal_partial	propext, Quot.sound
C266	Memar.Log.C266_listener_violated	propext, Quot.sound
C266	Memar.Log.C266_method_violated	propext
C266	Memar.Log.C266_time_violated	propext, Quot.sound
C266	Memar.Log.C266_nil_event_violated	propext
C267	Memar.Chapar.C267_route_partial	propext, Quot.sound
C267	Memar.Chapar.C267_never_leaves_violated	propext, Quot.sound
C267	Memar.Chapar.C267_fresh_violated	propext, Quot.sound
C267	Memar.Chapar.C267_endless_violated	propext, Quot.sound
C267	Memar.Chapar.C267_fresh_send_violated	propext, Classical.choice, Quot.sound
C267	Memar.Chapar.C267_bridge_partial	propext, Quot.sound
C267	Memar.Chapar.C267_bridge_deliver_partial	propext, Quot.sound
C267	Memar.Chapar.C267_bridge_last_violated	propext, Quot.sound
C267	Memar.Chapar.C267_broadcast_violated	propext, Classical.choice, Quot.sound
C267	Memar.Chapar.C267_broadcast_endless_violated	propext, Classical.choice, Quot.sound
C267	Memar.Chapar.C267_short_send_violated	propext, Quot.sound
C268	Memar.Tcp.C268_close_always_fails_violated	propext, Quot.sound
C268	Memar.Tcp.C268_close_with_running_timer_partial	propext, Quot.sound
C268	Memar.Tcp.C268_reset_does_nothing_violated	
C268	Memar.Tcp.C268_init_keeps_retries_violated	propext, Quot.sound
C268	Memar.Tcp.C268_reset_alone_probes_at_once_violated	propext, Quot.sound
C268	Memar.Tcp.C268_timing_reset_violated	propext
C269	Memar.Gui.C269_chosen_name_partial	propext, Classical.choice, Quot.sound
C269	Memar.Gui.C269_default_name_partial	propext, Classical.choice, Quot.sound
C269	Memar.Gui.C269_hyphen_violated	propext, Classical.choice, Quot.sound
C269	Memar.Gui.C269_chosen_name_violated	propext, Classical.choice, Quot.sound
C269	Memar.Gui.C269_fields_partial	propext, Classical.choice, Quot.sound
C269	Memar.Gui.C269_urn_partial	propext, Classical.choice, Quot.sound
C269	Memar.Gui.C269_quote_violated	propext, Classical.choice, Quot.sound
C269	Memar.Gui.C269_reused_request_violated	propext, Classical.choice, Quot.sound
C269	Memar.Gui.C269_splash_partial	propext, Classical.choice, Quot.sound
C269	Memar.Gui.C269_splash_lost_violated	propext, Classical.choice, Quot.sound
C270	Memar.Net.Gp.C270_lookup_partial	propext, Quot.sound
C270	Memar.Net.Gp.C270_payload_violated	propext, Quot.sound
C270	Memar.Net.Gp.C270_bad_type_violated	propext, Quot.sound
C270	Memar.Net.Gp.C270_panic_violated	propext, Quot.sound
C270	Memar.Net.Gp.C270_write_violated	
C271	Memar.Tcp.OverIp.C271_known_partial	propext, Quot.sound
C271	Memar.Tcp.OverIp.C271_new_violated	propext, Quot.sound
C271	Memar.Tcp.OverIp.C271_grows_violated	propext, Quot.sound
C271	Memar.Tcp.OverIp.C271_short_violated	propext, Quot.sound
C271	Memar.Tcp.OverIp.C271_malformed_partial	propext, Quot.sound
C272	Memar.Tcp.C272_in_order_partial	propext, Classical.choice, Quot.sound
C272	Memar.Tcp.C272_counted_per_segment_partial	propext, Classical.choice, Quot.sound
C272	Memar.Tcp.C272_following_segment_violated	propext, Classical.choice, Quot.sound
C272	Memar.Tcp.C272_empty_segment_violated	propext, Classical.choice, Quot.sound
C272	Memar.Tcp.C272_passive_open_violated	propext, Classical.choice, Quot.sound
C272	Memar.Tcp.C272_initial_number_violated	propext, Classical.choice, Quot.sound
C272	Memar.Tcp.C272_never_closes_violated	propext, Classical.choice, Quot.sound
C273	Memar.Os.C273_listed	propext, Classical.choice, Quot.sound
C273	Memar.Os.C273_asked_once	propext, Classical.choice, Quot.sound
C274	Memar.Timer.Queue.C274_start_fails_violated	propext, Classical.choice, Quot.sound
C274	Memar.Timer.Queue.C274_start_exact_partial	propext, Classical.choice, Quot.sound
C274	Memar.Timer.Queue.C274_start_returns_partial	propext, Classical.choice, Quot.sound
C274	Memar.Timer.Queue.C274_start_after_all_stopped_violated	propext, Classical.choice, Quot.sound
C274	Memar.Timer.Queue.C274_start_after_reset_violated	propext, Classical.choice, Quot.sound
C274	Memar.Timer.Queue.C274_start_violated	propext, Classical.choice, Quot.sound
C275	Memar.Net.Frames.C275_unknown_violated	propext, Quot.sound
C275	Memar.Net.Frames.C275_zero_length_violated	propext, Quot.sound
C275	Memar.Net.Frames.C275_error_violated	propext, Quot.sound
C275	Memar.Net.Frames.C275_terminates_partial	propext, Quot.sound
C275	Memar.Net.Frames.C275_in_order_partial	propext, Classical.choice, Quot.sound
C275	Memar.Net.Frames.C275_gp_violated	propext, Quot.sound
C275	Memar.Net.Frames.C275_chapar_violated	propext, Quot.sound
C276	Memar.Timer.Queue.C276_limit_on_the_queue_partial	propext, Classical.choice, Quot.sound
C276	Memar.Timer.Ticker.C276_limit_exceeded_violated	propext, Classical.choice, Quot.sound
C276	Memar.Timer.Ticker.C276_limit_and_remaining_partial	propext, Classical.choice, Quot.sound
C277	Memar.Time.C277_swap_words_partial	propext
C277	Memar.Time.C277_mixed_swap_violated	
C277	Memar.Time.C277_add_partial	propext, Classical.choice, Quot.sound
C277	Memar.Time.C277_failed_cas_changes_violated	propext
C277	Memar.Time.C277_cas_partial	propext
C277	Memar.Time.C277_torn_load_violated	propext, Quot.sound
C277	Memar.Time.C277_mixed_store_violated	propext, Quot.sound
C277	Memar.Time.C277_store_load_partial	propext, Quot.sound
C278	Memar.Json.C278_hang_violated	propext, Quot.sound
C278	Memar.Json.C278_bool_panic_violated	propext, Classical.choice, Quot.sound
C278	Memar.Json.C278_minified_string_cut_violated	propext
C278	Memar.Json.C278_string_panic_exact_violated	propext, Classical.choice, Quot.sound
C278	Memar.Json.C278_null_anywhere_violated	propext, Classical.choice, Quot.sound
C278	Memar.Json.C278_list_returns_iff_partial	propext, Classical.choice, Quot.sound
C278	Memar.Json.C278_others_stop_partial	propext, Quot.sound
C278	Memar.Json.C278_panics_iff_partial	propext, Classical.choice, Quot.sound
C279	Memar.Http.C279_absent_content_type_panics_violated	propext, Classical.choice, Quot.sound
C279	Memar.Http.C279_subtype_needs_semicolon_violated	propext, Classical.choice, Quot.sound
C279	Memar.Http.C279_short_parameter_panics_violated	propext, Classical.choice, Quot.sound
C279	Memar.Http.C279_second_parameter_violated	propext, Classical.choice, Quot.sound
C279	Memar.Http.C279_type_alone_partial	propext, Classical.choice, Quot.sound
C279	Memar.Http.C279_short_parameter_any_violated	propext, Classical.choice, Quot.sound
C279	Memar.Http.C279_short_text_any_violated	propext, Classical.choice, Quot.sound
C280	Memar.Chapar.C280_set_get	propext, Quot.sound
C280	Memar.Chapar.C280_marshal	propext, Quot.sound
C280	Memar.Chapar.C280_frame_round_trip	propext, Quot.sound
C281	Memar.Chapar.C281_kept_iff_partial	propext, Quot.sound
C281	Memar.Chapar.C281_long_violated	propext, Quot.sound
C281	Memar.Chapar.C281_empty_violated	
C281	Memar.Chapar.C281_cut_violated	propext, Quot.sound
C281	Memar.Chapar.C281_far_violated	propext, Quot.sound
C282	Memar.Os.C282_made_partial	propext, Quot.sound
C282	Memar.Os.C282_rename_violated	propext
C283	Memar.Timer.Ticker.C283_reinit_loses_the_limit_violated	propext
C283	Memar.Timer.Ticker.C283_stays_limited_partial	propext, Classical.choice, Quot.sound
C284	Memar.Shared.C284_only_its_room_partial	propext, Classical.choice, Quot.sound
C284	Memar.Shared.C284_taken_kept_partial	propext, Classical.choice, Quot.sound
C284	Memar.Shared.C284_others_kept_partial	propext, Classical.choice, Quot.sound
C284	Memar.Shared.C284_reset_violated	propext, Classical.choice, Quot.sound
C284	Memar.Shared.C284_taken_back_violated	propext, Classical.choice, Quot.sound
C284	Memar.Shared.C284_reset_exact_partial	propext, Classical.choice, Quot.sound
C284	Memar.Shared.C284_reset_moves_partial	propext, Classical.choice, Quot.sound
C284	Memar.Shared.C284_behind_violated	propext, Classical.choice, Quot.sound
C284	Memar.Shared.C284_store_violated	propext, Classical.choice, Quot.sound
C284	Memar.Shared.C284_store_after_move_partial	propext, Classical.choice, Quot.sound
C284	Memar.Shared.C284_as_if_own_partial	propext, Classical.choice, Quot.sound
C285	Memar.Shared.C285_own_contents_partial	propext, Classical.choice, Quot.sound
C285	Memar.Shared.C285_prepend_twice_violated	propext, Classical.choice, Quot.sound
C285	Memar.Shared.C285_copied_append_violated	propext, Classical.choice, Quot.sound
C285	Memar.Shared.C285_copied_one_partial	propext, Classical.choice, Quot.sound
C285	Memar.Shared.C285_replace_seen_violated	propext, Classical.choice, Quot.sound
C285	Memar.Shared.C285_store_violated	propext, Quot.sound
C285	Memar.Shared.C285_marshal_to_partial	propext, Classical.choice, Quot.sound
C286	Memar.Shared.C286_key_violated	propext, Classical.choice, Quot.sound
C286	Memar.Shared.C286_min_key_violated	propext, Classical.choice, Quot.sound
C286	Memar.Shared.C286_key_kept_partial	propext, Classical.choice, Quot.sound
C286	Memar.Shared.C286_value_kept_partial	propext, Classical.choice, Quot.sound
C286	Memar.Shared.C286_rest_partial	propext, Classical.choice, Quot.sound
C286	Memar.Shared.C286_unsafe_value_violated	propext, Classical.choice, Quot.sound
C286	Memar.Shared.C286_unsafe_value_kept_partial	propext, Classical.choice, Quot.sound
C286	Memar.Shared.C286_file_address_violated	propext, Classical.choice, Quot.sound
C286	Memar.Shared.C286_uri_reused_violated	propext, Classical.choice, Quot.sound
C286	Memar.Shared.C286_uri_kept_partial	propext, Classical.choice, Quot.sound
C286	Memar.Shared.C286_marshal_shared_violated	propext, Classical.choice, Quot.sound
C286	Memar.Shared.C286_written_violated	propext, Classical.choice, Quot.sound
C286	Memar.Shared.C286_written_kept_partial	propext, Classical.choice, Quot.sound
C286	Memar.Shared.C286_decode_as_bytes_partial	propext, Quot.sound
C286	Memar.Shared.C286_encode_as_bytes_partial	propext, Classical.choice, Quot.sound
C287	Memar.Shared.C287_within_partial	propext, Classical.choice, Quot.sound
C287	Memar.Shared.C287_behind_violated	propext, Classical.choice, Quot.sound
C287	Memar.Shared.C287_settled_exact_partial	propext, Classical.choice, Quot.sound
C287	Memar.Shared.C287_append_violated	propext, Classical.choice, Quot.sound
C287	Memar.Shared.C287_checked_segment_partial	propext, Classical.choice, Quot.sound
C287	Memar.Shared.C287_strings_partial	propext, Classical.choice, Quot.sound
C287	Memar.Shared.C287_strings_violated	propext, Classical.choice, Quot.sound
C287	Memar.Shared.C287_null_partial	propext, Classical.choice, Quot.sound
C287	Memar.Shared.C287_null_violated	propext, Classical.choice, Quot.sound
C287	Memar.Shared.C287_items	propext, Quot.sound
C287	Memar.Shared.C287_items_short	propext, Classical.choice, Quot.sound
C288	Memar.Net.Socket.C288_fits_partial	propext, Classical.choice, Quot.sound
C288	Memar.Net.Socket.C288_long_limit_violated	propext, Classical.choice, Quot.sound
C288	Memar.Net.Socket.C288_long_named_read_violated	propext, Classical.choice, Quot.sound
C289	Memar.Chapar.C289_known_partial	propext
C289	Memar.Chapar.C289_new_each_time_violated	propext, Classical.choice, Quot.sound
C289	Memar.Chapar.C289_mixed_violated	propext, Classical.choice, Quot.sound
C289	Memar.Chapar.C289_way_back_violated	propext, Classical.choice, Quot.sound
C289	Memar.Chapar.C289_long_frame_panic_violated	propext, Classical.choice, Quot.sound
C290	Memar.Registry.Parallel.C290_compress_meets_violated	propext, Classical.choice, Quot.sound
C290	Memar.Registry.Parallel.C290_media_meets_violated	propext, Classical.choice, Quot.sound
C290	Memar.Registry.Parallel.C290_error_meets_violated	propext, Classical.choice, Quot.sound
C290	Memar.Registry.Parallel.C290_service_meets_violated	propext, Classical.choice, Quot.sound
C290	Memar.Registry.Parallel.C290_register_meets_violated	propext, Quot.sound
C290	Memar.Registry.Parallel.C290_error_lookups	propext, Classical.choice, Quot.sound
C290	Memar.Registry.Parallel.C290_service_lookups	propext, Quot.sound
C290	Memar.Registry.Parallel.C290_compress_type_lookups	propext, Quot.sound
C290	Memar.Registry.Parallel.C290_media_type_lookups	propext, Quot.sound
C290	Memar.Registry.Parallel.C290_error_turns_partial	propext, Classical.choice, Quot.sound
C290	Memar.Registry.Parallel.C290_service_turns_partial	propext, Quot.sound
C290	Memar.Registry.Parallel.C290_compress_type_turns_partial	propext, Quot.sound
C290	Memar.Registry.Parallel.C290_media_type_turns_partial	propext, Quot.sound
C290	Memar.Registry.Parallel.C290_crash_violated	propext
C290	Memar.Registry.Parallel.C290_duplicate_violated	propext, Quot.sound
C290	Memar.Registry.Parallel.C290_indexes_violated	propext
C290	Memar.Registry.Parallel.C290_type_crash_violated	propext
C290	Memar.Registry.Parallel.C290_encoding_lost_violated	propext
C291	Memar.Timer.Wheel.C291_silent	propext, Quot.sound
C291	Memar.Timer.Wheel.C291_all_run_partial	propext, Classical.choice, Quot.sound
C291	Memar.Timer.Wheel.C291_lost_violated	propext, Quot.sound
C291	Memar.Timer.Wheel.C291_endless_violated	propext, Quot.sound
C292	Memar.Http.Expiry.C292_kept_partial	propext, Classical.choice, Quot.sound
C292	Memar.Http.Expiry.C292_dashed_partial	propext, Classical.choice, Quot.sound
C292	Memar.Http.Expiry.C292_far_violated	propext, Classical.choice, Quot.sound
C292	Memar.Http.Expiry.C292_calendar	propext, Classical.choice, Quot.sound
C292	Memar.Http.Expiry.C292_over_the_wire_partial	propext, Classical.choice, Quot.sound
C293	Memar.Http.C293_request_panic_violated	propext, Classical.choice, Quot.sound
C293	Memar.Http.C293_handler_panic_violated	propext, Classical.choice, Quot.sound
C293	Memar.Http.C293_service_by_text_partial	propext, Classical.choice, Quot.sound
C293	Memar.Http.C293_any_query_violated	propext, Classical.choice, Quot.sound
C293	Memar.Http.C293_error_text_partial	propext, Quot.sound
C293	Memar.Identifier.Go64.C293_panic_violated	propext, Classical.choice, Quot.sound
C293	Memar.Identifier.Go64.C293_read_partial	propext, Classical.choice, Quot.sound
C293	Memar.Identifier.Go64.C293_bad_text_violated	propext, Classical.choice, Quot.sound
C293	Memar.Identifier.Go64.C293_round_trip_partial	propext, Quot.sound
C293	Memar.Identifier.Go64.C293_second_text_violated	propext, Classical.choice, Quot.sound
C294	Memar.Json.C294_minified_partial	propext, Classical.choice, Quot.sound
C294	Memar.Json.C294_json_partial	propext, Classical.choice, Quot.sound
C294	Memar.Json.C294_not_json_violated	propext, Classical.choice, Quot.sound
C294	Memar.Json.C294_other_member_violated	propext, Classical.choice, Quot.sound
C294	Memar.Json.C294_space_violated	propext, Classical.choice, Quot.sound
C294	Memar.Json.C294_stale_violated	propext
C295	Memar.Json.Std64.C295_read_partial	propext, Classical.choice, Quot.sound
C295	Memar.Json.Std64.C295_line_break_violated	propext, Classical.choice, Quot.sound
C295	Memar.Json.Std64.C295_second_text_violated	propext, Classical.choice, Quot.sound
C295	Memar.Json.Std64.C295_list_partial	propext, Classical.choice, Quot.sound
C295	Memar.Json.Std64.C295_leak_violated	propext, Classical.choice, Quot.sound
C296	Memar.Chapar.C296_still_used_violated	propext, Quot.sound
C296	Memar.Chapar.C296_still_delivers_violated	propext, Quot.sound
C296	Memar.Chapar.C296_replaced_partial	propext, Quot.sound
C296	Memar.Chapar.C296_emptied_violated	propext, Quot.sound
C297	Memar.Chapar.C297_path_violated	
C297	Memar.Chapar.C297_path_text_partial	propext, Quot.sound
C297	Memar.Net.Gp.C297_gp_violated	
C298	Memar.Codec.C298_json_violated	
C298	Memar.Codec.C298_socket_violated	
C298	Memar.Codec.C298_copy_violated	
C298	Memar.Codec.C298_uri_partial	propext, Quot.sound
C299	Memar.Timer.WheelMany.C299_one_told	propext, Quot.sound
C299	Memar.Timer.WheelMany.C299_no_tick_after	propext, Classical.choice, Quot.sound
C299	Memar.Timer.WheelMany.C299_panics	propext, Classical.choice, Quot.sound
C299	Memar.Timer.WheelMany.C299_returned	propext, Classical.choice, Quot.sound
C300	Memar.Timer.WheelMany.C300_started_twice_violated	propext
C300	Memar.Timer.WheelMany.C300_panics_violated	propext
C300	Memar.Timer.WheelMany.C300_untold_partial	propext, Quot.sound
C301	Memar.Event.C301_uncomparable_violated	propext, Classical.choice, Quot.sound
C301	Memar.Event.C301_comparable_partial	propext, Classical.choice, Quot.sound
C301	Memar.Event.C301_stuck_violated	propext, Classical.choice, Quot.sound
C301	Memar.Event.C301_until_panic_partial	propext, Classical.choice, Quot.sound
C301	Memar.Event.C301_no_panic_partial	propext, Quot.sound
C302	Memar.Pool.C302_new_violated	propext, Quot.sound
C302	Memar.Pool.C302_new_partial	propext, Quot.sound
C302	Memar.Pool.C302_close_violated	propext, Quot.sound
C302	Memar.Pool.C302_close_partial	propext
C302	Memar.Pool.C302_returns_partial	propext, Quot.sound
C303	Memar.Pool.C303_two_rounds_partial	propext, Quot.sound
C303	Memar.Pool.C303_not_before	propext, Classical.choice, Quot.sound
C303	Memar.Pool.C303_hot_violated	propext, Classical.choice, Quot.sound
C304	Memar.Time.Sets.C304_weekdays	propext, Classical.choice, Quot.sound
C304	Memar.Time.Sets.C304_hours	propext, Classical.choice, Quot.sound
C304	Memar.Time.Sets.C304_half_hours	propext, Classical.choice, Quot.sound
C304	Memar.Time.Sets.C304_all_none_partial	propext, Classical.choice, Quot.sound
C304	Memar.Time.Sets.C304_all_equal_violated	propext, Classical.choice, Quot.sound
C305	Memar.Uri.Urn.nor.C305_parts_violated	
C305	Memar.Uri.Urn.nor.C305_text_partial	
C306	Memar.Event.C306_plain_partial	propext, Quot.sound
C306	Memar.Event.C306_once_violated	propext, Quot.sound
C306	Memar.Event.C306_twice_violated	propext, Quot.sound
C306	Memar.Event.C306_remove_violated	propext, Quot.sound
C306	Memar.Event.C306_ignored	propext, Classical.choice, Quot.sound
C306	Memar.Event.C306_event	
C307	Memar.Timer.Queue.C307_answers	propext, Classical.choice, Quot.sound
C307	Memar.Timer.Queue.C307_stop_violated	propext, Classical.choice, Quot.sound
C307	Memar.Timer.Queue.C307_reset_violated	propext, Classical.choice, Quot.sound
C307	Memar.Timer.Queue.C307_reset_partial	propext, Classical.choice, Quot.sound
C308	Memar.Registry.Declared.C308_told_apart_partial	propext, Quot.sound
C308	Memar.Registry.Declared.C308_told_apart_violated	propext, Quot.sound
C308	Memar.Registry.Declared.C308_found_partial	propext, Quot.sound
C308	Memar.Registry.Declared.C308_found_violated	propext, Quot.sound
C308	Memar.Registry.Declared.C308_space_violated	propext, Quot.sound
C309	Memar.Tcp.C309_reported_partial	propext, Quot.sound
C309	Memar.Tcp.C309_pushed_violated	propext, Quot.sound
C309	Memar.Tcp.C309_again_violated	propext, Quot.sound
C309	Memar.Tcp.C309_gaps_violated	propext, Quot.sound
C310	Memar.Http.C310_first_partial	propext, Classical.choice, Quot.sound
C310	Memar.Http.C310_ambiguous_violated	propext, Classical.choice, Quot.sound
C310	Memar.Http.C310_blank_violated	propext, Classical.choice, Quot.sound
C310	Memar.Http.C310_negative_violated	propext, Classical.choice, Quot.sound
C311	Memar.Os.C311_history_partial	propext
C311	Memar.Os.C311_reset	propext
C311	Memar.Os.C311_unread_violated	propext
C311	Memar.Os.C311_lost_after_reset_violated	propext
C311	Memar.Os.C311_compress_violated	propext, Classical.choice, Quot.sound
C312	Memar.Http.C312_in_memory_partial	propext, Classical.choice, Quot.sound
C312	Memar.Http.C312_stored_violated	propext, Classical.choice, Quot.sound
C312	Memar.Http.C312_missing_violated	propext, Classical.choice, Quot.sound
C312	Memar.Http.C312_main_page_unused_violated	propext, Classical.choice, Quot.sound
C312	Memar.Http.C312_every_request_violated	propext, Classical.choice, Quot.sound
C312	Memar.Http.C312_init_violated	propext, Classical.choice, Quot.sound
C313	Memar.Http.C313_every_host_violated	propext, Classical.choice, Quot.sound
C313	Memar.Http.C313_foreign_served_violated	propext, Classical.choice, Quot.sound
C313	Memar.Http.C313_own_domain_partial	propext, Classical.choice, Quot.sound
C313	Memar.Http.C313_used_again	propext, Quot.sound
C314	Memar.Http.C314_served_from_below	propext, Classical.choice, Quot.sound
C314	Memar.Http.C314_outside_does_not_show	propext, Classical.choice, Quot.sound
C314	Memar.Http.C314_made_inside_partial	propext, Classical.choice, Quot.sound
C314	Memar.Http.C314_made_beside_violated	propext, Classical.choice, Quot.sound
C314	Memar.Http.C314_made_above_violated	propext, Classical.choice, Quot.sound
C315	Memar.Http.C315_followed_partial	propext, Classical.choice, Quot.sound
C315	Memar.Http.C315_line_breaks_violated	propext, Classical.choice, Quot.sound
C316	Memar.Http.C316_comes_back_partial	propext, Classical.choice, Quot.sound
C316	Memar.Http.C316_path_injected_violated	propext, Classical.choice, Quot.sound
C316	Memar.Http.C316_reader_panics_violated	propext, Classical.choice, Quot.sound
C317	Memar.Uri.C317_absolute_arrives	propext, Classical.choice, Quot.sound
C317	Memar.Uri.C317_origin_arrives_partial	propext, Classical.choice, Quot.sound
C317	Memar.Uri.C317_request_line_partial	propext, Classical.choice, Quot.sound
C317	Memar.Uri.C317_query_stays_violated	propext, Classical.choice, Quot.sound
C317	Memar.Uri.C317_colon_violated	propext, Classical.choice, Quot.sound

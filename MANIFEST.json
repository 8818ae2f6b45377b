{
 "claims": [
  {
   "property": "C01",
   "status": "proved",
   "theorems": [
    "PG.Props.Stream.C01_reads_independent_of_chunking",
    "PG.Props.Stream.C01_two_schedules_agree"
   ],
   "note": ""
  },
  {
   "property": "C02",
   "status": "proved",
   "theorems": [
    "PG.Props.Stream.C02_framing_inverted"
   ],
   "note": ""
  },
  {
   "property": "C03",
   "status": "proved",
   "theorems": [
    "PG.Props.Stream.C03_len_has_next_agree",
    "PG.Props.Stream.C03_queries_have_no_effect"
   ],
   "note": ""
  },
  {
   "property": "C04",
   "status": "proved",
   "theorems": [
    "PG.Props.Stream.C04_nothing_lost_or_duplicated"
   ],
   "note": ""
  },
  {
   "property": "C05",
   "status": "proved",
   "theorems": [
    "PG.Props.Stream.C05_bad_length_reported",
    "PG.Props.Stream.C05_incomplete_yields_nothing"
   ],
   "note": ""
  },
  {
   "property": "C06",
   "status": "proved",
   "theorems": [
    "PG.Props.Elements.C06_backend_round_trip",
    "PG.Props.Elements.C06_over_the_wire",
    "PG.Props.Elements.C06_documented_format_is_parsed"
   ],
   "note": ""
  },
  {
   "property": "C07",
   "status": "proved",
   "theorems": [
    "PG.Props.Elements.C07_frontend_round_trip",
    "PG.Props.Elements.C07_bind_needs_formats",
    "PG.Props.Elements.C07_documented_format_is_sent"
   ],
   "note": "Bind/FunctionCall write len(args) for both counts, so the round trip needs one format per argument (C07_bind_needs_formats shows the failure otherwise)."
  },
  {
   "property": "C08",
   "status": "proved",
   "theorems": [
    "PG.Props.Elements.C08_batch_is_concatenation",
    "PG.Props.Elements.C08_grouping_irrelevant",
    "PG.Props.Elements.C08_peer_reads_batch",
    "PG.Props.Elements.C08_shorthands"
   ],
   "note": ""
  },
  {
   "property": "C09",
   "status": "partial",
   "theorems": [
    "PG.Props.Elements.C09_violated",
    "PG.Props.Elements.C09_truncated_row_partial"
   ],
   "note": "The property is false of the code: Tuple.parse does not notice a truncated last attribute (C09_violated is a machine-checked counterexample). C09_truncated_row_partial says exactly what such a row parses to."
  },
  {
   "property": "C10",
   "status": "partial",
   "theorems": [
    "PG.Props.Xact.C10_batching_partial",
    "PG.Props.Xact.C10_two_batchings_partial",
    "PG.Props.Xact.C10_equal_notifications_depend_on_batching",
    "PG.Props.Xact.C10_messages_before_fatal_depend_on_batching",
    "PG.Props.Xact.C10_violation_depends_on_batching"
   ],
   "note": "Proved for replies that conform to the protocol when read as one batch and whose rows parse. The unrestricted claim is false: machine-checked counterexamples C10_equal_notifications_depend_on_batching, C10_messages_before_fatal_depend_on_batching, C10_violation_depends_on_batching."
  },
  {
   "property": "C11",
   "status": "partial",
   "theorems": [
    "PG.Props.Xact.C11_redelivery_partial",
    "PG.Props.Xact.C11_notification_repeated",
    "PG.Props.Xact.C11_second_redelivery_fails"
   ],
   "note": "Proved for every interruption point for collected messages, position, error and status. Missing because false of the code: asynchronous messages handled before the interruption are given to the hook again (C11_notification_repeated); a third complete delivery of the same batch starts at the wrong place (C11_second_redelivery_fails)."
  },
  {
   "property": "C12",
   "status": "partial",
   "theorems": [
    "PG.Props.Reply.C12_completes_only_on_reply",
    "PG.Props.Reply.C12_completes_on_reply",
    "PG.Props.Reply.C12_fatal",
    "PG.Props.Reply.C12_ready_is_last",
    "PG.Props.Reply.C12_batched_partial",
    "PG.Props.Reply.C12_function_error_violates",
    "PG.Props.Reply.C12_describe_portal_nodata_violates",
    "PG.Props.Reply.C12_flush_first_fails",
    "PG.Props.Reply.C12_localized_error_is_fatal",
    "PG.Props.ReplyBatches.C12_batched_completes"
   ],
   "note": "For a reply in one batch: completes non-fatally exactly on the complete replies of the protocol (soundness and completeness against an independent grammar), for all command sequences without function calls; for several batches under the assumptions of C10. False of the code for function calls that fail (C12_function_error_violates), for Describe of a portal without rows (C12_describe_portal_nodata_violates), a leading Flush (C12_flush_first_fails) and localized severities (C12_localized_error_is_fatal)."
  },
  {
   "property": "C13",
   "status": "proved",
   "theorems": [
    "PG.Props.CopyIn.C13_copy_begins",
    "PG.Props.CopyIn.C13_user_ends",
    "PG.Props.CopyIn.C13_default_fails"
   ],
   "note": ""
  },
  {
   "property": "C14",
   "status": "partial",
   "theorems": [
    "PG.Negotiation.C14_count",
    "PG.Props.Negotiation.C14_password_only_on_request",
    "PG.Props.Negotiation.C14_success_partial",
    "PG.Props.Negotiation.C14_error_is_fatal",
    "PG.Props.Negotiation.C14_outcome",
    "PG.Props.Negotiation.C14_unsupported_is_fatal",
    "PG.Props.Negotiation.C14_ok_of_any_type"
   ],
   "note": "Everything but one point is proved for an arbitrary server. Missing because false of the code: the type of the message taken for the OK after the password is not checked (C14_ok_of_any_type). crypt and MD5 are parameters."
  },
  {
   "property": "C15",
   "status": "proved",
   "theorems": [
    "PG.Props.Client.C15_sent_once_in_order",
    "PG.Props.Client.C15_wire_is_prefix",
    "PG.Props.Client.C15_true_means_sent",
    "PG.Props.Client.C15_complete_means_sent",
    "PG.Props.Client.C15_instruction_sent_once",
    "PG.Props.Client.C15_received_once_in_order",
    "PG.Props.Client.C15_same_object_is_not_sent_again",
    "PG.Props.Client.C15_step_revives_failed"
   ],
   "note": "For every schedule of short writes, would-block results, socket errors and interrupted sends. Interrupts (signals) between two Python statements other than at the socket calls are not modelled. Findings stated as theorems: a batch that is the same Python object as the previous one is not sent again (C15_same_object_is_not_sent_again), step() revives a failed transaction's pending output (C15_step_revives_failed)."
  },
  {
   "property": "C16",
   "status": "proved",
   "theorems": [
    "PG.Props.Establish.C16_modes",
    "PG.Props.Establish.C16_unknown_mode",
    "PG.Props.Establish.C16_require",
    "PG.Props.Establish.C16_disable",
    "PG.Props.Establish.C16_security_is_true",
    "PG.Props.Establish.C16_prefer_no_downgrade_after_handshake"
   ],
   "note": "Socket, TLS and negotiation outcomes are arbitrary parameters."
  },
  {
   "property": "C17",
   "status": "proved",
   "theorems": [
    "PG.Props.Client.C17_trash_closed_once",
    "PG.Props.Client.C17_close_messages_sent",
    "PG.Props.Client.C17_trash_goes_first"
   ],
   "note": ""
  },
  {
   "property": "C18",
   "status": "proved",
   "theorems": [
    "PG.Props.Types.C18_bool",
    "PG.Props.Types.C18_int2",
    "PG.Props.Types.C18_int4",
    "PG.Props.Types.C18_int8",
    "PG.Props.Types.C18_oid",
    "PG.Props.Types.C18_tid",
    "PG.Props.Types.C18_geometry",
    "PG.Props.Types.C18_varbit",
    "PG.Props.Types.C18_net",
    "PG.Props.Types.C18_inet",
    "PG.Props.Types.C18_inet_prefix_is_zero",
    "PG.Props.Types.C18_cidr",
    "PG.Props.Types.C18_macaddr_formats",
    "PG.Props.Types.C18_macaddr"
   ],
   "note": "Floats are modelled as their IEEE bit images. inet: the address comes back but the prefix length is sent as 0 and the received mask is dropped (C18_inet_prefix_is_zero)."
  },
  {
   "property": "C19",
   "status": "proved",
   "theorems": [
    "PG.Props.Numeric.C19_unpack_value",
    "PG.Props.Numeric.C19_pack_value",
    "PG.Props.Numeric.C19_round_trip",
    "PG.Props.Numeric.C19_special_refused",
    "PG.Props.Numeric.C19_scale_limit"
   ],
   "note": "Decimals are modelled as Python's (sign, digits, exponent) tuples; rounding contexts do not enter. NaN and infinities are refused (C19_special_refused)."
  },
  {
   "property": "C20",
   "status": "partial",
   "theorems": [
    "PG.TypesLib.C20_slice_from_end",
    "PG.Props.Types.C20_record_round_trip",
    "PG.Props.Types.C20_record_unpack_exact",
    "PG.Props.Types.C20_record_truncated_or_extended",
    "PG.Props.Types.C20_array_round_trip",
    "PG.Props.Types.C20_array_unpack_never_ends",
    "PG.Props.Types.C20_array_truncation_accepted",
    "PG.Props.Types.C20_array_unpack_ends_partial"
   ],
   "note": "Records: round trip and an exact characterization of accepted data. Arrays: round trip; the claim that malformed array data is refused is false (C20_array_truncation_accepted, C20_array_unpack_never_ends: the unpacker loops for ever on some data); C20_array_unpack_ends_partial says when it ends."
  },
  {
   "property": "C21",
   "status": "proved",
   "theorems": [
    "PG.Props.DateTime.C21_date",
    "PG.Props.DateTime.C21_timestamp",
    "PG.Props.DateTime.C21_timestamptz",
    "PG.Props.DateTime.C21_infinities",
    "PG.Props.DateTime.C21_time",
    "PG.Props.DateTime.C21_timetz",
    "PG.Props.DateTime.C21_timetz_sign",
    "PG.Props.DateTime.C21_timetz_seconds_lost",
    "PG.Props.DateTime.C21_time_24_refused",
    "PG.Props.DateTime.C21_interval",
    "PG.Props.DateTime.C21_interval_noday",
    "PG.Props.DateTime.C21_interval_months"
   ],
   "note": "Integer date/time formats (all servers since 8.4 by default); float formats are not modelled. First and last date/microsecond are sent as -infinity/infinity. Offsets with seconds are rounded down (C21_timetz_seconds_lost), 24:00 is refused (C21_time_24_refused). The zone of a timetz is sent with the sign opposite to the server's (C21_timetz_sign)."
  },
  {
   "property": "C22",
   "status": "proved",
   "theorems": [
    "PG.Props.Hstore.C22_round_trip",
    "PG.Props.Hstore.C22_unpack_exact",
    "PG.Props.Hstore.C22_duplicates_refused",
    "PG.Props.Hstore.C22_number_determined",
    "PG.Props.Hstore.C22_duplicate_accepted",
    "PG.Props.Hstore.C22_jsonb"
   ],
   "note": "The codec of the connection is a parameter. A repeated key is accepted if the number in front is that of the different keys (C22_duplicate_accepted)."
  },
  {
   "property": "C23",
   "status": "proved",
   "theorems": [
    "PG.Props.Bytea.C23_encode_agrees",
    "PG.Props.Bytea.C23_decode_agrees",
    "PG.Props.Bytea.C23_round_trip",
    "PG.Props.Bytea.C23_decode_printable",
    "PG.Props.Bytea.C23_malformed_refused",
    "PG.Props.Bytea.C23_malformed_accepted"
   ],
   "note": "The pure Python codec; int(.., 8) is modelled for ASCII text. Finding: some escapes PostgreSQL refuses are accepted (C23_malformed_accepted)."
  },
  {
   "property": "C24",
   "status": "proved",
   "theorems": [
    "PG.Props.Bitwise.C24_slice",
    "PG.Props.Bitwise.C24_slice_bits",
    "PG.Props.Bitwise.C24_slice_bit",
    "PG.Props.Bitwise.C24_truth",
    "PG.Props.Bitwise.C24_bit",
    "PG.Props.Bitwise.C24_of_text",
    "PG.Props.Bitwise.C24_text_round_trip",
    "PG.Props.Bitwise.C24_concat",
    "PG.Props.Bitwise.C24_repeat",
    "PG.Props.Bitwise.C24_injective",
    "PG.Props.Bitwise.C24_of_bytes",
    "PG.Props.Bitwise.C24_wire",
    "PG.Props.Bitwise.C24_eq_same_kind",
    "PG.Props.Bitwise.C24_eq_single_raises",
    "PG.Props.Bitwise.C24_getbit_never"
   ],
   "note": "Construction, printing, concatenation, repetition, length and wire form are proved. C24_eq_same_kind: equality holds only between values of which both or none has one bit (C24_eq_single_raises). C24_getbit_never: reading a bit by index always fails."
  },
  {
   "property": "C25",
   "status": "proved",
   "theorems": [
    "PG.Props.PgArray.C25_from_nest",
    "PG.Props.PgArray.C25_empty",
    "PG.Props.PgArray.C25_accepts",
    "PG.Props.PgArray.C25_irregular_refused",
    "PG.Props.PgArray.C25_getitem",
    "PG.Props.PgArray.C25_nest",
    "PG.Props.PgArray.C25_round_trip",
    "PG.Props.PgArray.C25_get_element",
    "PG.Props.PgArray.C25_get_element_range",
    "PG.Props.PgArray.C25_from_elements",
    "PG.Props.PgArray.C25_from_elements_complete",
    "PG.Props.PgArray.C25_sql_get_element",
    "PG.Props.PgArray.C25_slice",
    "PG.Props.PgArray.C25_wire",
    "PG.Props.PgArray.C25_last_by_minus_one_fails",
    "PG.Props.PgArray.C25_index_after_last",
    "PG.Props.PgArray.C25_lower_only",
    "PG.Props.PgArray.C25_deeper_list_accepted",
    "PG.Props.PgArray.C25_tuple_taken_apart",
    "PG.Props.PgArray.C25_long_address"
   ],
   "note": "types/__init__.py Array (all construction, indexing, slicing and wire conversion). Findings proved as theorems: elements[-1] through get_element at the last index fails as the code computes it, index just past the end, lower-only slices, deeper lists accepted, tuples taken apart, long addresses."
  },
  {
   "property": "C26",
   "status": "proved",
   "theorems": [
    "PG.Props.Row.C26_access",
    "PG.Props.Row.C26_unknown",
    "PG.Props.Row.C26_names",
    "PG.Props.Row.C26_from_mapping",
    "PG.Props.Row.C26_transform",
    "PG.Props.Row.C26_get_total",
    "PG.Props.Row.C26_get_first_from_the_end",
    "PG.Props.Row.C26_repeated_name",
    "PG.Props.Row.C26_process_tuple",
    "PG.Props.Row.C26_process_tuple_fault",
    "PG.Props.Row.C26_record_wire",
    "PG.Props.Row.C26_record_dict"
   ],
   "note": "types/__init__.py Row, python/functools.py process_tuple (the pure-Python version, not the C port), driver/pq3.py record packing/unpacking. Findings: a repeated column name hides the earlier column; get(-len) returns None while [-len] works."
  },
  {
   "property": "C27",
   "status": "proved",
   "theorems": [
    "PG.Props.PgString.C27_literal",
    "PG.Props.PgString.C27_literal_unique",
    "PG.Props.PgString.C27_ident",
    "PG.Props.PgString.C27_empty_ident",
    "PG.Props.PgString.C27_unquoted",
    "PG.Props.PgString.C27_upper_case_lost",
    "PG.Props.PgString.C27_literal_escapes",
    "PG.Props.PgString.C27_backslash"
   ],
   "note": "postgresql/string.py quoting, against a specification of PostgreSQL's lexer (string constants with continuation over newlines, quoted identifiers, unquoted words). Standard_conforming_strings on; C27_literal_escapes/C27_backslash say what holds when it is off. Findings: C27_upper_case_lost, C27_backslash, C27_empty_ident."
  },
  {
   "property": "C28",
   "status": "proved",
   "theorems": [
    "PG.Props.PgString.C28_split_using",
    "PG.Props.PgString.C28_split_ident",
    "PG.Props.PgString.C28_qname",
    "PG.Props.PgString.C28_qname_if_needed",
    "PG.Props.PgString.C28_not_refused"
   ],
   "note": "split_using is proved equal to cutting outside quotes for every text and limit (single-character separator and quote). Unicode predicates are parameters with their ASCII facts. Finding: C28_not_refused."
  },
  {
   "property": "C29",
   "status": "partial",
   "theorems": [
    "PG.Props.SqlSplit.C29_unsplit_partial",
    "PG.Props.SqlSplit.C29_overlap_fails",
    "PG.Props.SqlSplit.C29_newline_in_dollar_quote",
    "PG.Props.SqlSplit.C29_split_sql",
    "PG.Props.SqlSplit.C29_quotations",
    "PG.Props.SqlSplit.C29_literal_in_script"
   ],
   "note": "The regular expression is modelled by what Python's matcher does with it (documented at each definition). Partial because unsplit(split(s)) = s is false for texts ending in E' or $x$x$ (C29_overlap_fails), proved for every other text; dollar quotes with line breaks are mis-split (C29_newline_in_dollar_quote)."
  },
  {
   "property": "C30",
   "status": "proved",
   "theorems": [
    "PG.Props.PgPass.C30_split",
    "PG.Props.PgPass.C30_entry",
    "PG.Props.PgPass.C30_lookup",
    "PG.Props.PgPass.C30_lookup_none",
    "PG.Props.PgPass.C30_parse",
    "PG.Props.PgPass.C30_lookup_file",
    "PG.Props.PgPass.C30_no_file",
    "PG.Props.PgPass.C30_comment"
   ],
   "note": "Whole of pgpassfile.py. Findings: comment lines (#...) are not recognized by parse and become entries when they have enough colons (C30_comment); a lone backslash is kept."
  },
  {
   "property": "C31",
   "status": "proved",
   "theorems": [
    "PG.Props.RiParse.C31_split",
    "PG.Props.RiParse.C31_unsplit_split",
    "PG.Props.RiParse.C31_split_unique",
    "PG.Props.RiParse.C31_unescape_escape",
    "PG.Props.RiParse.C31_unescape",
    "PG.Props.RiParse.C31_decodes_unique",
    "PG.Props.RiParse.C31_escape_free",
    "PG.Props.RiParse.C31_netloc",
    "PG.Props.RiParse.C31_parse_serialize",
    "PG.Props.RiParse.C31_not_carried"
   ],
   "note": "Whole of resolved/riparse.py for str. unsplit(split(s)) = s holds for every text and the division is characterized uniquely by an independent grammar (Parts). The dictionary round trip holds for every parameter set an RI can carry (DictOk/NetlocOk); what they exclude is shown lost by C31_not_carried."
  },
  {
   "property": "C32",
   "status": "proved",
   "theorems": [
    "PG.Iri.C32_schemes",
    "PG.Iri.C32_path_text",
    "PG.Props.Iri.C32_obscured",
    "PG.Props.Iri.C32_stars",
    "PG.Props.Iri.C32_parse_serialize",
    "PG.Props.Iri.C32_not_carried"
   ],
   "note": "Whole of iri.py. Carried lists exactly what an IRI carries without loss; what it leaves out is shown lost in C32_not_carried (ssl=True gives a scheme parse refuses, slash in database not escaped because of swapped re.sub arguments, search_path of pair-list settings dropped, blanks in socket paths). re.sub's template expansion is a parameter that is the identity without backslashes."
  },
  {
   "property": "C33",
   "status": "proved",
   "theorems": [
    "PG.Props.ConfigFile.C33_parse",
    "PG.Props.ConfigFile.C33_parts_unique",
    "PG.Props.ConfigFile.C33_unquote",
    "PG.Props.ConfigFile.C33_read",
    "PG.Props.ConfigFile.C33_selector",
    "PG.Props.ConfigFile.C33_set",
    "PG.Props.ConfigFile.C33_unset",
    "PG.Props.ConfigFile.C33_set_read",
    "PG.Props.ConfigFile.C33_unset_read",
    "PG.Props.ConfigFile.C33_others",
    "PG.Props.ConfigFile.C33_edits",
    "PG.Props.ConfigFile.C33_already",
    "PG.Props.ConfigFile.C33_empty",
    "PG.Props.ConfigFile.C33_written",
    "PG.Props.ConfigFile.C33_update",
    "PG.Props.ConfigFile.C33_update_get",
    "PG.Props.ConfigFile.C33_update_none",
    "PG.Props.ConfigFile.C33_update_others",
    "PG.Props.ConfigFile.C33_items",
    "PG.Props.ConfigFile.C33_getset",
    "PG.Props.ConfigFile.C33_delete_fails",
    "PG.Props.ConfigFile.C33_write_read",
    "PG.Props.ConfigFile.C33_case",
    "PG.Props.ConfigFile.C33_dotted",
    "PG.Props.ConfigFile.C33_empty_file",
    "PG.Props.ConfigFile.C33_unclosed"
   ],
   "note": "Line level for any lines; file level for values on one line and closed quotes in the lines edited (C33_unclosed shows why). Read-back needs the same spelling (C33_case) and names without dots (C33_dotted)."
  },
  {
   "property": "C34",
   "status": "proved",
   "theorems": [
    "PG.Props.CopyMan.C34_position",
    "PG.Props.CopyMan.C34_chunking",
    "PG.Props.CopyMan.C34_foreign",
    "PG.Props.CopyMan.C34_dead",
    "PG.Props.CopyMan.C34_realign",
    "PG.Props.CopyMan.C34_publish",
    "PG.Props.CopyMan.C34_short_length"
   ],
   "note": "For every byte stream of CopyData messages followed by anything, in every chunking. Finding: for length words below 4, which no server sends, the count depends on the chunking (C34_short_length)."
  },
  {
   "property": "C35",
   "status": "proved",
   "theorems": [
    "PG.Props.CopyManager.C35_delivery",
    "PG.Props.CopyManager.C35_success",
    "PG.Props.CopyManager.C35_order",
    "PG.Props.CopyManager.C35_completes",
    "PG.Props.CopyManager.C35_late_reconcile",
    "PG.Props.CopyManager.C35_early_leave",
    "PG.Props.CopyManager.C35_aligned"
   ],
   "note": "Producer, sockets and callables are arbitrary scripts; StatementProducer's handling of the connection is C72; StatementReceiver's is C73. Finding: a receiver added back by reconcile() only after further steps has silently lost data (C35_late_reconcile). Finding: leaving the block early between messages without an exception counts as success (C35_early_leave)."
  },
  {
   "property": "C36",
   "status": "proved",
   "theorems": [
    "PG.DbApi.C36_refines",
    "PG.DbApi.C36_chunks",
    "PG.DbApi.C36_once_in_order",
    "PG.DbApi.C36_negative_amount",
    "PG.DbApi.C36_stale_result",
    "PG.DbApi.C36_negative"
   ],
   "note": ""
  },
  {
   "property": "C37",
   "status": "proved",
   "theorems": [
    "PG.DbApi.C37_positional",
    "PG.DbApi.C37_empty_mapping",
    "PG.DbApi.C37_named",
    "PG.DbApi.C37_named_size",
    "PG.DbApi.C37_mixed",
    "PG.DbApi.C37_references",
    "PG.DbApi.C37_digit_after_marker",
    "PG.DbApi.C37_percent_per_text",
    "PG.DbApi.C37_comment",
    "PG.DbApi.C37_extra_key"
   ],
   "note": ""
  },
  {
   "property": "C38",
   "status": "partial",
   "theorems": [
    "PG.ALock.C38_refused",
    "PG.ALock.C38_try",
    "PG.ALock.C38_flat_partial",
    "PG.ALock.C38_release_order",
    "PG.ALock.C38_not_held",
    "PG.ALock.C38_nested_release",
    "PG.ALock.C38_nested_steals",
    "PG.ALock.C38_failed_acquire",
    "PG.ALock.C38_count"
   ],
   "note": "Exact accounting for any number of lock objects and any program that does not nest (C38_flat_partial), refused tries leave nothing behind (C38_refused). The nested half of the property is false of the code: C38_nested_release, C38_nested_steals; C38_failed_acquire shows a failing wait keeps the locks granted before it."
  },
  {
   "property": "C39",
   "status": "proved",
   "theorems": [
    "PG.NotifyMan.C39_wait_default",
    "PG.NotifyMan.C39_timeouts",
    "PG.NotifyMan.C39_iter",
    "PG.NotifyMan.C39_iter_done",
    "PG.NotifyMan.C39_iter_goes_on",
    "PG.NotifyMan.C39_iter_first",
    "PG.NotifyMan.C39_once_in_order",
    "PG.NotifyMan.C39_pending",
    "PG.NotifyMan.C39_after_idle",
    "PG.NotifyMan.C39_no_starvation",
    "PG.NotifyMan.C39_idle_due",
    "PG.NotifyMan.C39_stop",
    "PG.NotifyMan.C39_discard",
    "PG.NotifyMan.C39_wires",
    "PG.NotifyMan.C39_wait_bound",
    "PG.NotifyMan.C39_idle_comes",
    "PG.NotifyMan.C39_poll_blind",
    "PG.NotifyMan.C39_bad_blocks",
    "PG.NotifyMan.C39_idle_while_pending",
    "PG.NotifyMan.C39_poll_pending",
    "PG.NotifyMan.C39_lost"
   ],
   "note": "Exactly-once, order, discarding, wires and idle events for all schedules; Connection.iternotifies (C39_iter*) and the timeouts (C39_timeouts) too. Findings: C39_poll_blind (timeout 0 never reads the wires), C39_poll_pending, C39_idle_while_pending, C39_lost, C39_bad_blocks (one undecodable notification stops all)."
  },
  {
   "property": "C40",
   "status": "partial",
   "theorems": [
    "PG.Transaction.C40_meaning_partial",
    "PG.Transaction.C40_atomic_partial",
    "PG.Transaction.C40_finished",
    "PG.Transaction.C40_states",
    "PG.Transaction.C40_one_statement",
    "PG.Transaction.C40_interrupt",
    "PG.Transaction.C40_rolled_back"
   ],
   "note": "Nested with-blocks refine a denotational meaning for every program, every server answer and every loss of the connection (C40_meaning_partial, C40_atomic_partial); object states (C40_finished, C40_states); one statement (C40_one_statement). Missing: programs that leave a block by an exception outside Exception, for which the claim is false: C40_interrupt."
  },
  {
   "property": "C41",
   "status": "partial",
   "theorems": [
    "PG.Settings.C41_key_error",
    "PG.Settings.C41_coherent_partial",
    "PG.Settings.C41_read_after_write_partial",
    "PG.Settings.C41_restored_partial",
    "PG.Settings.C41_program_partial",
    "PG.Settings.C41_path_partial",
    "PG.Settings.C41_subscribed",
    "PG.Settings.C41_message",
    "PG.Settings.C41_rollback_stale",
    "PG.Settings.C41_letter_case",
    "PG.Settings.C41_units",
    "PG.Settings.C41_path_refused"
   ],
   "note": "Cache coherence for every history, unconditionally for reported parameters and for the others under the stated conditions (C41_coherent_partial, C41_program_partial), blocks restore whatever their body does (C41_restored_partial), path round trip, exact subscription semantics (C41_subscribed, C41_message). The conditions are necessary: C41_rollback_stale, C41_letter_case, C41_units, C41_path_refused."
  },
  {
   "property": "C42",
   "status": "partial",
   "theorems": [
    "PG.Fetch.C42_waits",
    "PG.Fetch.C42_noise",
    "PG.Fetch.C42_fetch_all",
    "PG.Fetch.C42_decode_error",
    "PG.Fetch.C42_stop",
    "PG.Fetch.C42_stream",
    "PG.Fetch.C42_stream_prefix",
    "PG.Fetch.C42_stream_stop_partial",
    "PG.Fetch.C42_stream_error_lost",
    "PG.Fetch.C42_stream_error_forgotten",
    "PG.Fetch.C42_other_error_loses_rows",
    "PG.Fetch.C42_chunksize_changed",
    "PG.Fetch.C42_chunksize_zero",
    "PG.Fetch.C42_stream_decode_error"
   ],
   "note": "FetchAll over the model of protocol transactions: every row once, in order (C42_fetch_all), a stream that ends has ended well (C42_stop), a row that cannot be decoded is never skipped (C42_decode_error). MultiXactStream over the server's portal: C42_stream, C42_stream_prefix. 'Ends only if complete' holds for it only if nothing else uses the connection (C42_stream_stop_partial); otherwise false: C42_stream_error_lost, C42_other_error_loses_rows, C42_stream_error_forgotten; also C42_chunksize_changed, C42_chunksize_zero, C42_stream_decode_error."
  },
  {
   "property": "C43",
   "status": "partial",
   "theorems": [
    "PG.Client3.C43_handler",
    "PG.Props.VersionString.C43_split",
    "PG.Props.VersionString.C43_unsplit_partial",
    "PG.Props.VersionString.C43_unsplit_no_level",
    "PG.Props.VersionString.C43_normalize",
    "PG.Props.VersionString.C43_four_numbers",
    "PG.Props.VersionString.C43_packaged"
   ],
   "note": "split and normalize: proved for every version. unsplit: C43_unsplit_partial, wrong for a state without level (C43_unsplit_no_level). Findings: four numbers lose the state fields (C43_four_numbers); a packager's suffix, as in '10.5 (Debian ...)', raises ValueError (C43_packaged)."
  },
  {
   "property": "C44",
   "status": "proved",
   "theorems": [
    "PG.Itertools.C44_chunk",
    "PG.Itertools.C44_empty_chunk",
    "PG.Itertools.C44_empty_chunk_iff",
    "PG.Itertools.C44_zero",
    "PG.Itertools.C44_interlace",
    "PG.Itertools.C44_interlace_all",
    "PG.Itertools.C44_find"
   ],
   "note": "chunk, interlace, find for all inputs. The documented example of chunk is wrong (C44_empty_chunk, C44_empty_chunk_iff); chunk size 0 never ends (C44_zero)."
  },
  {
   "property": "C45",
   "status": "partial",
   "theorems": [
    "PG.Props.Exceptions.C45_most_general",
    "PG.Props.Exceptions.C45_error_partial",
    "PG.Props.Exceptions.C45_is_error",
    "PG.Props.Exceptions.C45_caught",
    "PG.Props.Exceptions.C45_program_limit",
    "PG.Props.Exceptions.C45_escape_character",
    "PG.Props.Exceptions.C45_standard",
    "PG.Props.Exceptions.C45_warning",
    "PG.Props.Exceptions.C45_warning_caught"
   ],
   "note": "All class statements are in the model. C45_error_partial leaves out 22019 and class 54, for which the claim is false (C45_escape_character: the class name is bound twice; C45_program_limit: PLEError is made from the builtin OverflowError). Warnings: no exception."
  },
  {
   "property": "C46",
   "status": "proved",
   "theorems": [
    "PG.SymLib.C46_join",
    "PG.Props.SymBind.C46_bound",
    "PG.Props.SymBind.C46_once",
    "PG.Props.SymBind.C46_questions",
    "PG.Props.SymBind.C46_transient",
    "PG.Props.SymBind.C46_preload",
    "PG.Props.SymBind.C46_lazy",
    "PG.Props.SymBind.C46_none",
    "PG.Props.SymLib.C46_file",
    "PG.Props.SymLib.C46_read",
    "PG.Props.SymLib.C46_refused",
    "PG.Props.SymLib.C46_marker",
    "PG.Props.SymLib.C46_name",
    "PG.Props.SymLib.C46_find"
   ],
   "note": "Libraries from Python modules and callable symbols not modelled; Category not modelled. Findings: constants and procedures are not loaded at bind time although documented (C46_lazy); a constant whose value is None is prepared and run again at each access (C46_none)."
  },
  {
   "property": "C47",
   "status": "partial",
   "theorems": [
    "PG.Props.ClientParams.C47_open",
    "PG.Props.ClientParams.C47_connect",
    "PG.Props.ClientParams.C47_fit",
    "PG.Props.ClientParams.C47_no_prompt",
    "PG.Props.ClientParams.C47_unix",
    "PG.Props.ClientParams.C47_unix_passfile",
    "PG.Props.ClientParams.C47_password",
    "PG.Props.ClientParams.C47_collect_partial",
    "PG.Props.ClientParams.C47_collect_total",
    "PG.Props.ClientParams.C47_missing_service",
    "PG.Props.ClientParams.C47_env_settings",
    "PG.Props.ClientParams.C47_requiressl",
    "PG.Props.ClientParams.C47_collect_password",
    "PG.ClientParams.C47_settings_shape"
   ],
   "note": "Partial: settings of the environment (PGTZ, PGOPTIONS, ...) are dropped (C47_env_settings), PGREQUIRESSL=1 gives a pair instead of a mode (C47_requiressl), a unix socket with a password file but no password cannot be opened (C47_unix_passfile). The operating system is a parameter; parsing of the command line by optparse is not modelled."
  },
  {
   "property": "C48",
   "status": "partial",
   "theorems": [
    "PG.DbApiConn.C48_meaning_partial",
    "PG.DbApiConn.C48_rollback_partial",
    "PG.DbApiConn.C48_commit_partial",
    "PG.DbApiConn.C48_failed_commit",
    "PG.DbApiConn.C48_silent_rollback",
    "PG.DbApiConn.C48_switch_discards",
    "PG.DbApiConn.C48_lost_close"
   ],
   "note": "Refinement of a transaction-object-free meaning for every history of calls (C48_meaning_partial), with readable corollaries for rollback and commit. Missing: servers on which COMMIT fails, for which the claim is false: C48_failed_commit. Further findings: C48_silent_rollback, C48_switch_discards, C48_lost_close."
  },
  {
   "property": "C49",
   "status": "partial",
   "theorems": [
    "PG.Cursor.C49_position",
    "PG.Cursor.C49_symmetry_partial",
    "PG.Cursor.C49_backward_as_reversed",
    "PG.Cursor.C49_read",
    "PG.Cursor.C49_pieces",
    "PG.Cursor.C49_exhausted",
    "PG.Cursor.C49_iterate",
    "PG.Cursor.C49_seek",
    "PG.Cursor.C49_seek_all",
    "PG.Cursor.C49_read_direction",
    "PG.Cursor.C49_not_symmetric",
    "PG.Cursor.C49_backward_relative"
   ],
   "note": "Position invariant for every call (C49_position), consecutive reads, pieces, exhaustion, iteration for all results and sizes. The documented symmetry holds for reads, RELATIVE seeks and non-negative ABSOLUTE/FROM_END seeks in every sequence (C49_symmetry_partial, C49_backward_as_reversed); it is false for FORWARD/BACKWARD seeks and negative absolute positions (C49_not_symmetric, C49_backward_relative). Server FETCH/MOVE semantics assumed as PostgreSQL documents them."
  },
  {
   "property": "C50",
   "status": "partial",
   "theorems": [
    "PG.Domains.C50_basetype",
    "PG.Domains.C50_not_domain",
    "PG.TypeIo.C50_resolve",
    "PG.TypeIo.C50_history",
    "PG.TypeIo.C50_domain",
    "PG.TypeIo.C50_recursive_type",
    "PG.TypeIo.C50_output_partial",
    "PG.TypeIo.C50_input_partial",
    "PG.TypeIo.C50_packs",
    "PG.TypeIo.C50_input_wrong",
    "PG.TypeIo.C50_regclass",
    "PG.TypeIo.C50_regclass_array"
   ],
   "note": "Resolution: C50_resolve, C50_history, C50_domain hold for every finite catalog and history; types that contain themselves raise TypeError (C50_recursive_type). Formats: columns are right unless a container holds a type whose binary format is not text (C50_output_partial, C50_regclass_array); parameters without packer are declared binary but encoded as text (C50_input_partial, C50_input_wrong, C50_regclass)."
  },
  {
   "property": "C51",
   "status": "proved",
   "theorems": [
    "PG.LoadRows.C51_load_chunks",
    "PG.LoadRows.C51_load_rows",
    "PG.LoadRows.C51_load_rows_succeeds",
    "PG.LoadRows.C51_load_rows_partially",
    "PG.LoadRows.C51_not_atomic",
    "PG.LoadRows.C51_no_parameters"
   ],
   "note": "For every server behaviour, packing and failure. Findings: a load that raises outside a block keeps the chunks before the failure (C51_not_atomic); a statement without parameters is executed once before load_rows raises (C51_no_parameters)."
  },
  {
   "property": "C52",
   "status": "proved",
   "theorems": [
    "PG.Props.CopyLoad.C52_load_all",
    "PG.Props.CopyLoad.C52_load_exact",
    "PG.Props.CopyLoad.C52_interrupted_never_commits",
    "PG.Props.CopyLoad.C52_not_copy_is_run",
    "PG.Props.CopyLoad.C52_next_operation_fails"
   ],
   "note": "Findings proved as theorems: a statement that is not a COPY is refused only after it has been executed (C52_not_copy_is_run); after an interrupted load the server's error is raised by the next, unrelated operation (C52_next_operation_fails)."
  },
  {
   "property": "C53",
   "status": "proved",
   "theorems": [
    "PG.Props.Messages.C53_error",
    "PG.Props.Messages.C53_missing",
    "PG.Props.Messages.C53_fatal",
    "PG.Props.Messages.C53_notice",
    "PG.Props.Messages.C53_hooks"
   ],
   "note": "From the bytes of the documented message body to the attributes of the exception. creator/database/__cause__ are not modelled; the decoder and str.upper are parameters. Finding: an error without code or message raises KeyError (C53_missing)."
  },
  {
   "property": "C54",
   "status": "proved",
   "theorems": [
    "PG.Props.Connector.C54_parameters",
    "PG.Props.Connector.C54_message",
    "PG.Props.Connector.C54_settings_kept",
    "PG.Props.Connector.C54_search_path_none",
    "PG.Props.Connector.C54_user",
    "PG.Props.Connector.C54_ip",
    "PG.Props.Connector.C54_host",
    "PG.Props.Connector.C54_unix",
    "PG.Props.Connector.C54_hidden",
    "PG.Props.Connector.C54_repr",
    "PG.Props.Connector.C54_nul"
   ],
   "note": "Codecs, str() and getaddrinfo are parameters. NAMEDATALEN truncation not modelled. Findings: a search_path of None is removed from the caller's own settings dictionary but still sent as the text 'None' (C54_search_path_none); a NUL in a value injects further startup parameters (C54_nul); repr() of a connector shows the password (C54_repr)."
  },
  {
   "property": "C55",
   "status": "proved",
   "theorems": [
    "PG.Props.Lifecycle.C55_closed_for_good",
    "PG.Props.Lifecycle.C55_close_lost",
    "PG.Props.Lifecycle.C55_never_half_failed",
    "PG.Props.Lifecycle.C55_terminate",
    "PG.Props.Lifecycle.C55_terminate_busy",
    "PG.Props.Lifecycle.C55_fatal_is_final",
    "PG.Props.Lifecycle.C55_error_keeps_open",
    "PG.Props.Lifecycle.C55_connect_open",
    "PG.Props.Lifecycle.C55_connect",
    "PG.Props.Lifecycle.C55_connect_again_fails",
    "PG.Props.Lifecycle.C55_state",
    "PG.Props.Lifecycle.C55_synchronize_reopens",
    "PG.Props.Lifecycle.C55_close_interrupted",
    "PG.Props.Lifecycle.C55_no_goodbye"
   ],
   "note": "Histories in which a step left a half-failed transaction (only possible if a send failed fatally in it, C55_never_half_failed) are excluded in C55_closed_for_good. Findings proved as theorems: a second connect() after a failed one always raises AttributeError (C55_connect_again_fails), synchronize() reopens a lost connection whose socket works (C55_synchronize_reopens), an interrupted close() leaves it open (C55_close_interrupted), close() succeeds without the goodbye if it cannot be sent (C55_no_goodbye)."
  },
  {
   "property": "C56",
   "status": "proved",
   "theorems": [
    "PG.Props.Status.C56_errors_reported",
    "PG.Props.Status.C56_success_no_error",
    "PG.Props.Status.C56_close_swallows",
    "PG.Props.Status.C56_synchronize_swallows",
    "PG.Props.Status.C56_trash_swallows"
   ],
   "note": "Instructions only; Few/Pend invariant over histories; close/synchronize/trash excluded because they do swallow errors (C56_*_swallows)."
  },
  {
   "property": "C57",
   "status": "proved",
   "theorems": [
    "PG.Props.Status.C57_status",
    "PG.Props.Status.C57_state",
    "PG.Props.Status.C57_busy"
   ],
   "note": "From the end of the negotiation on; before the first ReadyForQuery of an Instruction the status is the one the connection was established with (a parameter)."
  },
  {
   "property": "C58",
   "status": "proved",
   "theorems": [
    "PG.Props.Statement.C58_first_none",
    "PG.Props.Statement.C58_first_row",
    "PG.Props.Statement.C58_first_value",
    "PG.Props.Statement.C58_first_null",
    "PG.Props.Statement.C58_first_undecodable",
    "PG.Props.Statement.C58_first_tag",
    "PG.Props.Statement.C58_bad_parameters",
    "PG.Props.Statement.C58_first_sound",
    "PG.Props.Statement.C58_call_rows",
    "PG.Props.Statement.C58_call_command",
    "PG.Props.Statement.C58_call_copy",
    "PG.Props.Statement.C58_call_empty",
    "PG.Props.Statement.C58_call_sound",
    "PG.Props.Statement.C58_column_values",
    "PG.Props.Statement.C58_column_null",
    "PG.Props.Statement.C58_column_no_columnError",
    "PG.Props.Statement.C58_first_asks",
    "PG.Props.Statement.C58_call_asks"
   ],
   "note": "Findings: with one column a NULL in the first row and no row are the same for first() (C58_first_null); column() turns a NULL, and any undecodable value, into TypeError because of next(range) instead of the error that names the column (C58_column_null, C58_column_no_columnError); a SELECT without columns makes first() return the count (example)."
  },
  {
   "property": "C59",
   "status": "partial",
   "theorems": [
    "PG.Props.SqlText.C59_notify",
    "PG.Props.SqlText.C59_notify_empty",
    "PG.Props.SqlText.C59_do",
    "PG.Props.SqlText.C59_declare",
    "PG.Props.SqlText.C59_declareCursor",
    "PG.Props.SqlText.C59_seek",
    "PG.Props.SqlText.C59_seek_all",
    "PG.Props.SqlText.C59_read",
    "PG.Props.SqlText.C59_savepoint",
    "PG.Props.SqlText.C59_start_one",
    "PG.Props.SqlText.C59_start_rejects",
    "PG.Props.SqlText.C59_start",
    "PG.Props.SqlText.C59_listen_partial",
    "PG.Props.SqlText.C59_listen_iff",
    "PG.Props.SqlText.C59_listen_injects",
    "PG.Props.SqlText.C59_listen_folds",
    "PG.Props.SqlText.C59_listen_not_all"
   ],
   "note": "Proved for everything but listen/unlisten. C59_listen_partial: these name the channel asked for only if the name is a lower-case word of at most 63 characters (C59_listen_iff: exactly then), because the name is not quoted; C59_listen_injects, C59_listen_folds and C59_listen_not_all are the counterexamples. Text without NUL, standard_conforming_strings on. Names must not be empty (C59_notify_empty)."
  },
  {
   "property": "C60",
   "status": "proved",
   "theorems": [
    "PG.Prepare.C60_waits",
    "PG.Props.Prepare.C60_prepare_asks",
    "PG.Props.Prepare.C60_from_id_asks",
    "PG.Props.Prepare.C60_prepared",
    "PG.Props.Prepare.C60_prepared_sound",
    "PG.Props.Prepare.C60_prepare_error",
    "PG.Props.Prepare.C60_names",
    "PG.Props.Prepare.C60_names_repeated",
    "PG.Props.Prepare.C60_query_rows",
    "PG.Props.Prepare.C60_query_command",
    "PG.Props.Prepare.C60_query_first",
    "PG.Props.Prepare.C60_query_raises"
   ],
   "note": "C60_prepare_asks, C60_from_id_asks: what is asked of the server. C60_prepared, C60_prepared_sound, C60_prepare_error: what is returned. C60_query_rows, C60_query_command, C60_query_first, C60_query_raises: in one step. C60_names: by name; finding C60_names_repeated: of columns with the same name only the last can be had by name. That all parameters are declared binary is the finding of C50."
  },
  {
   "property": "C61",
   "status": "partial",
   "theorems": [
    "PG.Props.Procedure.C61_function_name",
    "PG.Props.Procedure.C61_text_partial",
    "PG.Props.Procedure.C61_character_cut",
    "PG.Props.Procedure.C61_identified_unnamed",
    "PG.Props.Procedure.C61_lookup_error",
    "PG.Props.Procedure.C61_made",
    "PG.Props.Procedure.C61_construct_raises",
    "PG.Props.Procedure.C61_call_row",
    "PG.Props.Procedure.C61_call_value",
    "PG.Props.Procedure.C61_call_no_row",
    "PG.Props.Procedure.C61_call_sound",
    "PG.Props.Procedure.C61_set",
    "PG.Props.Procedure.C61_keywords_raise",
    "PG.Props.Procedure.C61_keywords_never"
   ],
   "note": "C61_text_partial excludes bpchar (C61_character_cut: cast to character(1), the argument is silently cut) and types that identify() was used for (C61_identified_unnamed). Keyword calls always raise NameError or AttributeError (C61_keywords_raise, C61_keywords_never). Calls and sets are full for positional arguments."
  },
  {
   "property": "C62",
   "status": "proved",
   "theorems": [
    "PG.Props.Cluster.C62_running_true",
    "PG.Props.Cluster.C62_running_false",
    "PG.Props.Cluster.C62_running_raises",
    "PG.Props.Cluster.C62_running_still",
    "PG.Props.Cluster.C62_own",
    "PG.Props.Cluster.C62_looks_only",
    "PG.Props.Cluster.C62_ready",
    "PG.Props.Cluster.C62_ready_no",
    "PG.Props.Cluster.C62_ready_raises",
    "PG.Props.Cluster.C62_no_address",
    "PG.Props.Cluster.C62_address",
    "PG.Props.Cluster.C62_address_blank",
    "PG.Props.Cluster.C62_connect",
    "PG.Props.Cluster.C62_started",
    "PG.Props.Cluster.C62_started_raises",
    "PG.Props.Cluster.C62_started_ends",
    "PG.Props.Cluster.C62_crash_left_file",
    "PG.Props.Cluster.C62_stopped",
    "PG.Props.Cluster.C62_stopped_raises",
    "PG.Props.Cluster.C62_stopped_ends",
    "PG.Props.Cluster.C62_stop_race",
    "PG.Props.Cluster.C62_exit_code",
    "PG.Cluster.C62_state"
   ],
   "note": "Proved for every sequence of answers of the system. Witnesses of behaviour a user may not expect: C62_no_address (TypeError for the configuration initdb writes), C62_address_blank, C62_crash_left_file, C62_stop_race (TypeError), C62_exit_code (last_exit_code None)."
  },
  {
   "property": "C63",
   "status": "partial",
   "theorems": [
    "PG.Props.Cluster.C63_signal",
    "PG.Props.Cluster.C63_target_partial",
    "PG.Props.Cluster.C63_wrong_process",
    "PG.Props.Cluster.C63_ended_process",
    "PG.Props.Cluster.C63_start",
    "PG.Props.Cluster.C63_start_settings",
    "PG.Props.Cluster.C63_restart",
    "PG.Props.Cluster.C63_drop",
    "PG.Props.Cluster.C63_with",
    "PG.Props.Cluster.C63_with_leaves"
   ],
   "note": "C63_target_partial: signals go to the process the file named just before or to one the object started; that this is the server is refuted by C63_wrong_process and C63_ended_process. C63_start_settings: start(settings=...) never starts (AttributeError). C63_with_leaves: a server is left running when the wait of __enter__ raises. The rest is full."
  },
  {
   "property": "C64",
   "status": "partial",
   "theorems": [
    "PG.Props.ClusterDrop.C64_outside",
    "PG.Props.ClusterDrop.C64_removed_partial",
    "PG.Props.ClusterDrop.C64_links_fail",
    "PG.ClusterDrop.C64_remove"
   ],
   "note": "C64_outside (safety) is full; C64_removed_partial is for trees without links to directories; C64_links_fail proves that with any such link drop raises and the directory stays. Nothing else changes the files meanwhile; permissions are not modelled."
  },
  {
   "property": "C65",
   "status": "proved",
   "theorems": [
    "PG.Props.ClusterInit.C65_command",
    "PG.Props.ClusterInit.C65_unknown",
    "PG.Props.ClusterInit.C65_outcome",
    "PG.Props.ClusterInit.C65_password_gone",
    "PG.Props.ClusterInit.C65_password_there",
    "PG.Props.ClusterInit.C65_password_secret",
    "PG.Props.ClusterInit.C65_killed",
    "PG.Props.ClusterInit.C65_encoding_case",
    "PG.ClusterInit.C65_logfile"
   ],
   "note": "Finding C65_encoding_case: with a password, encoding='SQL_ASCII' (upper case) raises LookupError though without a password the same call succeeds. The temporary file's removal is Python's (with block)."
  },
  {
   "property": "C66",
   "status": "partial",
   "theorems": [
    "PG.Props.Encodings.C66_standard_partial",
    "PG.Props.Encodings.C66_older_partial",
    "PG.Props.Encodings.C66_older_missing",
    "PG.Props.Encodings.C66_shift_jis_2004",
    "PG.Props.Encodings.C66_windows",
    "PG.Props.Encodings.C66_other",
    "PG.Props.Encodings.C66_last",
    "PG.Props.Encodings.C66_case"
   ],
   "note": "C66_standard_partial leaves out SHIFT_JIS_2004, which C66_shift_jis_2004 proves is mapped to the codec euc_jis_2004. C66_case: get_python_name itself minds case (only the caller for client_encoding lowers)."
  },
  {
   "property": "C67",
   "status": "partial",
   "theorems": [
    "PG.Props.Temporal.C67_nested",
    "PG.Props.Temporal.C67_restored_partial",
    "PG.Props.Temporal.C67_lost",
    "PG.Props.Temporal.C67_untouched",
    "PG.Props.Temporal.C67_balanced",
    "PG.Props.Temporal.C67_sandbox",
    "PG.Props.Temporal.C67_clean",
    "PG.Props.Temporal.C67_previous_lost",
    "PG.Props.Temporal.C67_new_left",
    "PG.Props.Temporal.C67_interrupted",
    "PG.Props.Temporal.C67_entering_interrupted",
    "PG.Props.Temporal.C67_new",
    "PG.Props.Cluster.C67_destroy_other",
    "PG.Props.Cluster.C67_destroy",
    "PG.Props.Cluster.C67_destroy_stuck"
   ],
   "note": "Partial since false: C67_restored_partial needs that the names are not among the builtins before (C67_lost, C67_previous_lost: they are removed). C67_new_left: `new` stays. C67_interrupted, C67_entering_interrupted: an interrupt leaves the schema, and while entering, the names. C67_clean is for operations that all succeed."
  },
  {
   "property": "C68",
   "status": "partial",
   "theorems": [
    "PG.Installation.C68_broken",
    "PG.Installation.C68_executables",
    "PG.Props.Installation.C68_dictionary",
    "PG.Props.Installation.C68_configure_partial",
    "PG.Props.Installation.C68_version",
    "PG.Props.Installation.C68_vendor",
    "PG.Props.Installation.C68_paths",
    "PG.Props.Installation.C68_installed",
    "PG.Props.Installation.C68_options_partial",
    "PG.Props.Installation.C68_ssl_partial",
    "PG.Props.Installation.C68_default",
    "PG.Props.Installation.C68_old",
    "PG.Props.Installation.C68_failing",
    "PG.Props.Installation.C68_configure_end",
    "PG.Props.Installation.C68_configure_quote",
    "PG.Props.Installation.C68_dictionary_crlf",
    "PG.Props.Installation.C68_unquoted",
    "PG.Props.Installation.C68_default_installation"
   ],
   "note": "C68_configure_partial (and what follows from it) excludes values with single quotes and arguments ending with a dash or double quote: C68_configure_end, C68_configure_quote show what happens to these. Findings: C68_vendor (ValueError for every packaged version such as 'PostgreSQL 13.4 (Debian ...)'), C68_installed (includedir_server is always None), C68_failing (AttributeError when pg_config fails)."
  },
  {
   "property": "C69",
   "status": "partial",
   "theorems": [
    "PG.Props.NamedTuple.C69_fields",
    "PG.Props.NamedTuple.C69_once",
    "PG.Props.NamedTuple.C69_rows",
    "PG.Props.NamedTuple.C69_factory_partial",
    "PG.Props.NamedTuple.C69_composite",
    "PG.Props.NamedTuple.C69_duplicate_columns",
    "PG.Props.NamedTuple.C69_factory_incomplete",
    "PG.Props.NamedTuple.C69_rows_share",
    "PG.Props.NamedTuple.C69_namedtuples_share",
    "PG.Props.NamedTuple.C69_bad_row"
   ],
   "note": "Partial because the factory of rows fails for results with two columns of the same name: the attribute map it is given has fewer names than the row has values (C69_duplicate_columns, C69_factory_incomplete). Everything else is proved without restriction. Python's isidentifier and iskeyword are parameters."
  },
  {
   "property": "C70",
   "status": "partial",
   "theorems": [
    "PG.Props.Geometry.C70_arithmetic",
    "PG.Props.Geometry.C70_division_partial",
    "PG.Props.Geometry.C70_division_false",
    "PG.Props.Geometry.C70_distance",
    "PG.Props.Geometry.C70_segment",
    "PG.Props.Geometry.C70_parallel_partial",
    "PG.Props.Geometry.C70_perpendicular_partial",
    "PG.Props.Geometry.C70_perpendicular_false",
    "PG.Props.Geometry.C70_box",
    "PG.Props.Geometry.C70_box_center",
    "PG.Props.Geometry.C70_box_nan",
    "PG.Props.Geometry.C70_circle"
   ],
   "note": "Partial because the code is wrong: `/` of points raises TypeError (only __div__ of Python 2 is defined) and __div__ has a wrong sign, so that it is right exactly if the divisor lies on the axis or the dividend has no x (C70_division_partial, C70_division_false); perpendicular compares the quotient of the slopes to -1 instead of the product and is wrong both ways (C70_perpendicular_false); parallel and perpendicular raise ZeroDivisionError on vertical segments. Arithmetic is exact (an ordered field); rounding is not modelled, NaN only for boxes (C70_box_nan)."
  },
  {
   "property": "C71",
   "status": "proved",
   "theorems": [
    "PG.Props.Crypt.C71_crypt",
    "PG.Props.Crypt.C71_salt",
    "PG.Props.Crypt.C71_salt_two",
    "PG.Props.Crypt.C71_length",
    "PG.Props.Crypt.C71_verify",
    "PG.Props.Crypt.C71_eight"
   ],
   "note": "Proved against the published tables of FIPS 46 (Spec/Crypt.lean), bit by bit; the tables are checked against the standard by kernel evaluation, everything else by induction over keys, rounds and iterations. Salts with characters other than the 64 digits are covered by C71_length, C71_verify, C71_eight and C71_salt_two only: no textbook result is defined for them."
  },
  {
   "property": "C72",
   "status": "proved",
   "theorems": [
    "PG.Props.CopyTo.C72_copied",
    "PG.Props.CopyTo.C72_prefix",
    "PG.Props.CopyTo.C72_error",
    "PG.Props.CopyTo.C72_interrupted",
    "PG.Props.CopyTo.C72_trailing_incomplete"
   ],
   "note": "Proved for every answer in the grammar of Spec/CopyTo (which ends with ReadyForQuery) and rows below 2 GiB. Finding (C72_trailing_incomplete): when the last rows, ReadyForQuery and a part of a later asynchronous message arrive in one read, the assertion in confiscate raises AttributeError and the rows are not published. Not modelled: socket exceptions; the effect of interrupt() is in what the server sends."
  },
  {
   "property": "C73",
   "status": "proved",
   "theorems": [
    "PG.Props.CopyReceiver.C73_transmitted",
    "PG.Props.CopyReceiver.C73_success",
    "PG.Props.CopyReceiver.C73_failed",
    "PG.Props.CopyReceiver.C73_interrupted",
    "PG.Props.CopyReceiver.C73_torn_message",
    "PG.Props.CopyReceiver.C73_success_without_commit"
   ],
   "note": "C73_transmitted, C73_success, C73_failed, C73_interrupted for every history; findings C73_torn_message (a fault in the middle of a message: CopyFail becomes part of the message) and C73_success_without_commit (using the destination's connection during the COPY: it fails, but leaving returns)."
  },
  {
   "property": "C74",
   "status": "proved",
   "theorems": [
    "PG.Props.Transfer.C74_transferred",
    "PG.Props.Transfer.C74_sound",
    "PG.Props.Transfer.C74_source_error",
    "PG.Props.Transfer.C74_cleaned",
    "PG.Props.Transfer.C74_not_atomic"
   ],
   "note": "The end-to-end composition of C72 and C73. Finding: a transfer to several destinations is not atomic (C74_not_atomic)."
  },
  {
   "property": "C75",
   "status": "proved",
   "theorems": [
    "PG.Props.Manager.C75_progress",
    "PG.Props.Manager.C75_completed",
    "PG.Props.Manager.C75_sound",
    "PG.Props.Manager.C75_put_back",
    "PG.Props.Manager.C75_late_reconcile",
    "PG.Props.Manager.C75_break_commits"
   ],
   "note": "Findings: reconciling after the iteration went on loses data silently (C75_late_reconcile); leaving the loop early at a message boundary commits a part of the rows (C75_break_commits)."
  },
  {
   "property": "C76",
   "status": "partial",
   "theorems": [
    "PG.Props.Async.C76_delivered",
    "PG.Props.Async.C76_notifications_partial",
    "PG.Props.Async.C76_settings_partial",
    "PG.Props.Async.C76_notices",
    "PG.Props.Async.C76_session_partial",
    "PG.Props.Async.C76_connected",
    "PG.Props.Async.C76_equal_dropped",
    "PG.Props.Async.C76_closing_drops",
    "PG.Props.Async.C76_callback_stale",
    "PG.Props.Async.C76_unknown_encoding",
    "PG.Props.Async.C76_greeting_notices"
   ],
   "note": "Proved for transactions whose batches contain no two equal asynchronous messages (C76_delivered says what happens otherwise). False of the code, shown by witnesses: of equal notifications in one batch one is dropped (C76_equal_dropped); while discarded statements are closed asynchronous messages are dropped (C76_closing_drops); a callback that raises, or an encoding Python does not have, leaves settings stale (C76_callback_stale, C76_unknown_encoding); notices during connect are dropped (C76_greeting_notices)."
  },
  {
   "property": "C77",
   "status": "partial",
   "theorems": [
    "PG.Props.Convert.C77_path",
    "PG.Props.Convert.C77_attribute",
    "PG.Props.Convert.C77_parameter",
    "PG.Props.Convert.C77_bound",
    "PG.Props.Convert.C77_column_partial",
    "PG.Props.Convert.C77_rows",
    "PG.Props.Convert.C77_anonymous",
    "PG.Props.Convert.C77_short",
    "PG.Props.Convert.C77_first_bare",
    "PG.Props.Convert.C77_cursor_from_id",
    "PG.Props.Convert.C77_element",
    "PG.Props.ReprBytes.C77_repr"
   ],
   "note": "Parameters and composites are proved in full; columns for rows of cursors and for first() with several columns (C77_column_partial). False of the code for first() of one column, which raises the routine's own exception (C77_first_bare), column() (see C58), cursors of cursor_from_id, which raise AttributeError (C77_cursor_from_id). An array's exception does not say which element it was (C77_element)."
  },
  {
   "property": "C78",
   "status": "proved",
   "theorems": [
    "PG.Props.RoundTrip.C78_sent",
    "PG.Props.RoundTrip.C78_comes_back",
    "PG.Props.RoundTrip.C78_echo",
    "PG.Props.RoundTrip.C78_python"
   ],
   "note": "C78_sent: the format (Sent, Spec/RoundTrip, over the field layouts of Spec/Types) is what is packed, and is unpacked as it says; by induction over Sent. C78_comes_back: everything that is packed is Sent and comes back Alike; by induction over the type. C78_echo: through bind and row. C78_python: the Array class of C25 meets the laws."
  },
  {
   "property": "C79",
   "status": "proved",
   "theorems": [
    "PG.Props.Marker.C79_shown",
    "PG.Props.Marker.C79_line",
    "PG.Props.Marker.C79_place",
    "PG.Props.Marker.C79_nothing",
    "PG.Props.Marker.C79_end",
    "PG.Props.Marker.C79_end_example"
   ],
   "note": "Scoped to characters of the statement. Finding (C79_end): an error at the end of the input, where the server reports one more than the length, is shown under the last character, with its number."
  },
  {
   "property": "C80",
   "status": "partial",
   "theorems": [
    "PG.Props.Describe.C80_types_partial",
    "PG.Props.Describe.C80_no_columns",
    "PG.Props.Describe.C80_types_raise",
    "PG.Props.Describe.C80_bare",
    "PG.Props.Describe.C80_bare_types",
    "PG.Props.Describe.C80_conforms_partial",
    "PG.Props.Describe.C80_otherwise",
    "PG.Props.Describe.C80_sql_names",
    "PG.Props.Describe.C80_output_raises",
    "PG.Props.Describe.C80_output"
   ],
   "note": "Partial because false of the code: with a column of type oid, xid, cid, tid, uuid, a domain over one of them, an anonymous record or an identified hstore column_types raises IndexError (their I/O is a pair, C80_types_raise, C80_bare), with a type not in the catalog UnboundLocalError; values of inet, cidr, bit(n), xml and of arrays without binary output are not of the class that is said (C80_otherwise); sql_column_types of a cursor without columns raises TypeError (C80_output_raises). Classes of values are a table, not derived from the models of the routines."
  },
  {
   "property": "C81",
   "status": "partial",
   "theorems": [
    "PG.Props.ElementText.C81_text",
    "PG.Props.ElementText.C81_recursive_no_text",
    "PG.Props.ElementText.C81_recursive_partial",
    "PG.Props.ElementText.C81_set_unprotected",
    "PG.Props.ElementText.C81_error",
    "PG.Props.ElementText.C81_message_details",
    "PG.Props.ElementText.C81_details_shown"
   ],
   "note": "Partial: a loop through an ElementSet forgets the coverage and ends only when the stack is used up (C81_set_unprotected); graphs without sets are complete. Blank lines and blanks at the ends of lines are not part of what is shown."
  },
  {
   "property": "C82",
   "status": "partial",
   "theorems": [
    "PG.DbApi.C82_executemany_partial",
    "PG.DbApi.C82_executemany_returns",
    "PG.DbApi.C82_executemany_prefix",
    "PG.DbApi.C82_no_parameters",
    "PG.DbApi.C82_refused",
    "PG.DbApi.C82_wrong_number",
    "PG.DbApi.C82_extra_keys",
    "PG.DbApi.C82_not_atomic",
    "PG.DbApi.C82_rowcount",
    "PG.DbApi.C82_description",
    "PG.DbApi.C82_type_code_partial",
    "PG.DbApi.C82_no_code",
    "PG.DbApi.C82_rowid_is_number",
    "PG.DbApi.C82_stale_description",
    "PG.DbApi.C82_date_time_ticks",
    "PG.DbApi.C82_timestamp_ticks",
    "PG.DbApi.C82_timestamp"
   ],
   "note": "Partial because: executemany also accepts mappings with extra keys which execute refuses (C82_extra_keys); a statement without markers is executed once and then raises (C82_no_parameters); character, real, double precision, numeric, date, time, timetz and interval columns have no type code (C82_no_code); TimestampFromTicks puts the day of the week into the microseconds (C82_timestamp_ticks)."
  },
  {
   "property": "C83",
   "status": "partial",
   "theorems": [
    "PG.Security.C83_verified",
    "PG.Security.C83_read_once",
    "PG.Security.C83_keywords",
    "PG.Security.C83_secures",
    "PG.Security.C83_no_root",
    "PG.Security.C83_prefer_without_root",
    "PG.Security.C83_require_without_root",
    "PG.Security.C83_broken_forever",
    "PG.Security.C83_name_unchecked",
    "PG.Security.C83_revocation",
    "PG.Security.C83_key_alone",
    "PG.Security.C83_socket_partial",
    "PG.Security.C83_socket_interrupted",
    "PG.Security.C83_port_interface"
   ],
   "note": "Partial because an interrupt while connecting leaves the socket open (C83_socket_interrupted). Findings: without sslrootcrtfile no authority is trusted, so the default mode cannot connect to any server with SSL (C83_prefer_without_root); the server's name and revocation are not checked (C83_name_unchecked, C83_revocation); a factory whose files failed to load keeps the half-made context and never works again (C83_broken_forever); a key file without a certificate file is ignored; find_available_port ignores its interface argument."
  },
  {
   "property": "C84",
   "status": "partial",
   "theorems": [
    "PG.UuidXml.C84_uuid",
    "PG.UuidXml.C84_uuid_text",
    "PG.UuidXml.C84_uuid_standard",
    "PG.UuidXml.C84_uuid_loose",
    "PG.UuidXml.C84_path",
    "PG.UuidXml.C84_path_exact",
    "PG.UuidXml.C84_polygon_count",
    "PG.UuidXml.C84_vectors_never",
    "PG.UuidXml.C84_xml_partial",
    "PG.UuidXml.C84_xml_text_lost",
    "PG.UuidXml.C84_xml_other"
   ],
   "note": "Partial: the text before the first element of XML content is lost when it is read, so content that is plain text comes back as an empty tuple (C84_xml_text_lost). Texts Python reads as a number of 32 characters are taken for UUIDs too (C84_uuid_loose). path_pack sends the number of coordinates where the server expects the number of points (C84_polygon_count; not used by connections), and the packing functions of oidvector and int2vector always raise (C84_vectors_never). xml.etree.ElementTree is a parameter of which only that it reads what it writes is assumed (a library with that property is given)."
  },
  {
   "property": "C85",
   "status": "proved",
   "theorems": [
    "PG.Handles.C85_failed",
    "PG.Handles.C85_no_leak",
    "PG.Handles.C85_closed_at_next",
    "PG.Handles.C85_no_duplicate",
    "PG.Handles.C85_kept",
    "PG.Handles.C85_made",
    "PG.Handles.C85_names",
    "PG.Handles.C85_once"
   ],
   "note": "The connection stays usable in this model (C55, C56 have lost connections), and user-chosen names are not of the form py:0x... The interpreter's choice of free addresses and of the moments of collection is arbitrary."
  },
  {
   "property": "C86",
   "status": "partial",
   "theorems": [
    "PG.Chunks.C86_block",
    "PG.Chunks.C86_hold_partial",
    "PG.Chunks.C86_not_declarable",
    "PG.Chunks.C86_from_id",
    "PG.Chunks.C86_from_id_chunks",
    "PG.Chunks.C86_same_rows_partial",
    "PG.Chunks.C86_copy",
    "PG.Chunks.C86_copy_column",
    "PG.Chunks.C86_nothing",
    "PG.Chunks.C86_before_sending",
    "PG.Chunks.C86_wrong_width"
   ],
   "note": "Partial because the unrestricted claim is false: outside of a block a statement that returns rows but cannot be declared (INSERT ... RETURNING) raises (C86_not_declarable), and chunks() of a statement_from_id there raises AttributeError (C86_from_id_chunks); column() of a COPY raises TypeError (C86_copy_column). The server is a specification of Parse/Bind/Execute/Sync, DECLARE and FETCH."
  },
  {
   "property": "C87",
   "status": "partial",
   "theorems": [
    "PG.FloatTime.C87_rounding",
    "PG.FloatTime.C87_time_partial",
    "PG.FloatTime.C87_time_lost",
    "PG.FloatTime.C87_timetz_partial",
    "PG.FloatTime.C87_timestamp_partial",
    "PG.FloatTime.C87_timestamp_lost",
    "PG.FloatTime.C87_infinities",
    "PG.FloatTime.C87_timestamptz_partial",
    "PG.FloatTime.C87_interval_partial",
    "PG.FloatTime.C87_interval_lost",
    "PG.FloatTime.C87_interval_noday_partial",
    "PG.FloatTime.C87_interval_months",
    "PG.FloatTime.C87_format"
   ],
   "note": "Partial because exactness is false of the code: mktimetuple truncates 1000000 * (ts - floor(ts)), so 00:00:01.000001 is read as 00:00:01 (C87_time_lost); the last microseconds of 9999 raise OverflowError when read back and the first of year 1 read as the value for -infinity (C87_timestamp_lost). The bytes of a double are modelled by its value."
  },
  {
   "property": "C88",
   "status": "proved",
   "theorems": [
    "PG.Props.DotConf.C88_sets",
    "PG.Props.DotConf.C88_refused",
    "PG.Props.DotConf.C88_failed_leaves",
    "PG.Props.DotConf.C88_settings_file",
    "PG.Props.DotConf.C88_empty_file"
   ],
   "note": "The option -f does not work at all: C88_settings_file proves that any settings file with a setting in it raises NameError; C88_empty_file: an empty configuration file raises IndexError."
  },
  {
   "property": "C89",
   "status": "partial",
   "theorems": [
    "PG.PgArray.C89_compare",
    "PG.PgArray.C89_equal",
    "PG.PgArray.C89_items",
    "PG.PgArray.C89_copy_partial",
    "PG.PgArray.C89_not_copied"
   ],
   "note": "Partial: an array whose elements are themselves lists of different lengths cannot be copied or unpickled (C89_not_copied); copies are proved for elements that are not lists."
  },
  {
   "property": "C90",
   "status": "proved",
   "theorems": [
    "PG.Category.C90_bound",
    "PG.Category.C90_kept",
    "PG.Category.C90_when",
    "PG.Category.C90_error"
   ],
   "note": "Finding: the exception is NameError instead of the AttributeError meant (C90_error)."
  },
  {
   "property": "C91",
   "status": "partial",
   "theorems": [
    "PG.Props.PyCommand.C91_command",
    "PG.Props.PyCommand.C91_script",
    "PG.Props.PyCommand.C91_module",
    "PG.Props.PyCommand.C91_stdin",
    "PG.Props.PyCommand.C91_console",
    "PG.Props.PyCommand.C91_context_raises",
    "PG.Props.PyCommand.C91_context_text_broken",
    "PG.Props.PyCommand.C91_context_module_missing",
    "PG.Props.PyCommand.C91_main_missing",
    "PG.Props.PyCommand.C91_restores_partial",
    "PG.Props.PyCommand.C91_environment_lost",
    "PG.Props.PyCommand.C91_postmortem",
    "PG.Props.PyCommand.C91_postmortem_missing"
   ],
   "note": "The environment is not put back entirely (C91_environment_lost): os.environ becomes a plain dictionary, so variables set by the program stay in what child processes inherit, and later settings of os.environ do not reach child processes. What Python does (compiling, reading, finding modules) is a parameter; abbreviations of --context and bundled short options are not modelled."
  },
  {
   "property": "C92",
   "status": "partial",
   "theorems": [
    "PG.Props.Console.C92_backslash",
    "PG.Props.Console.C92_python",
    "PG.Props.Console.C92_temporary",
    "PG.Props.Console.C92_distinct",
    "PG.Props.Console.C92_path_partial",
    "PG.Props.Console.C92_set",
    "PG.Props.Console.C92_execute",
    "PG.Props.Console.C92_edit",
    "PG.Props.Console.C92_command",
    "PG.Props.Console.C92_i_lowercases"
   ],
   "note": "For \\i the claim fails for names without a slash that are no temporary file: the file of the lower-cased name is executed (C92_i_lowercases). shlex.split, the editor, Python's console and executed files are parameters."
  },
  {
   "property": "C93",
   "status": "partial",
   "theorems": [
    "PG.Props.PgPython.C93_attempts",
    "PG.Props.PgPython.C93_builtins_partial",
    "PG.Props.PgPython.C93_builtins_left",
    "PG.Props.PgPython.C93_run",
    "PG.Props.PgPython.C93_failure",
    "PG.Props.PgPython.C93_raised"
   ],
   "note": "Built-ins that did not exist before are left bound to None (C93_builtins_left): the loop that would delete them asks for overloads that are None and uses an undefined name. After a run that ends without an exception the current directory stays in the library path; a script that cannot be read leaves the connection open. The trace file and failures of closing are not modelled."
  },
  {
   "property": "C94",
   "status": "partial",
   "theorems": [
    "PG.Props.OptBuffer.C94_same_results_partial",
    "PG.Props.OptBuffer.C94_read_malformed",
    "PG.Props.OptBuffer.C94_read_negative",
    "PG.Props.OptBuffer.C94_not_the_same",
    "PG.Props.OptBuffer.C94_signed",
    "PG.Props.OptBuffer.C94_wraps"
   ],
   "note": "Partial: the claim without bounds is false of the code (C94_not_the_same, C94_signed, C94_wraps, C94_read_malformed, C94_read_negative)."
  },
  {
   "property": "C95",
   "status": "partial",
   "theorems": [
    "PG.Props.OptElement3.C95_parse",
    "PG.Props.OptElement3.C95_parse_error",
    "PG.Props.OptElement3.C95_pack",
    "PG.Props.OptElement3.C95_round_trip",
    "PG.Props.OptElement3.C95_pack_same",
    "PG.Props.OptElement3.C95_parse_same",
    "PG.Props.OptElement3.C95_batch_partial",
    "PG.Props.OptElement3.C95_batch_bytes_partial",
    "PG.Props.OptElement3.C95_void",
    "PG.Props.OptElement3.C95_large"
   ],
   "note": "Parsing and packing in C are proved in full against the wire format, and equal to the Python functions where both give a result; C rejects a row whose last attribute is cut short, which Python accepts (C09). Batches are partial: a Void gives four bytes in C (C95_void), and a COPY line of 2^31-4 bytes is sent by C while Python raises (C95_large)."
  },
  {
   "property": "C96",
   "status": "partial",
   "theorems": [
    "PG.Props.OptXact3.C96_consume",
    "PG.Props.OptXact3.C96_consume_error",
    "PG.Props.OptXact3.C96_recut",
    "PG.Props.OptXact3.C96_same_partial",
    "PG.Props.OptXact3.C96_malformed",
    "PG.Props.OptXact3.C96_empty"
   ],
   "note": "C96_recut: with rows that the C function accepts, the state of the transaction is equal to that of the Python machine on some recutting of the reads. C96_same_partial compares with the Python machine on the same reads; it is partial exactly as C10 is (replies with errors or violations depend on batching in Python already). A row that is cut short is accepted without C and raises with it (C96_malformed); an empty batch raises IndexError without C and does not with it (C96_empty)."
  },
  {
   "property": "C97",
   "status": "proved",
   "theorems": [
    "PG.Props.OptStruct.C97_short_pack",
    "PG.Props.OptStruct.C97_long_pack",
    "PG.Props.OptStruct.C97_ushort_pack",
    "PG.Props.OptStruct.C97_ulong_pack",
    "PG.Props.OptStruct.C97_longlong_pack",
    "PG.Props.OptStruct.C97_ulonglong_pack",
    "PG.Props.OptStruct.C97_unpack_signed",
    "PG.Props.OptStruct.C97_unpack_unsigned",
    "PG.Props.OptStruct.C97_round_trip"
   ],
   "note": "All sixteen functions in use. Arguments that are not int (floats and objects with __int__, which older versions of Python convert) and buffers other than bytes are not modelled."
  },
  {
   "property": "C98",
   "status": "partial",
   "theorems": [
    "PG.Props.OptFunctools.C98_row_partial",
    "PG.Props.OptFunctools.C98_row_values",
    "PG.Props.OptFunctools.C98_chunk_partial",
    "PG.Props.OptFunctools.C98_refused",
    "PG.Props.OptFunctools.C98_iterable_raises",
    "PG.Props.OptFunctools.C98_compose",
    "PG.Props.OptFunctools.C98_list",
    "PG.Props.OptFunctools.C98_iterable"
   ],
   "note": "C98_row_values is independent of both implementations. Partial as stated: C98_list and C98_iterable are the differences; all callers in the driver pass tuples."
  },
  {
   "property": "C99",
   "status": "proved",
   "theorems": [
    "PG.OptWire.C99_same",
    "PG.OptWire.C99_position",
    "PG.OptWire.C99_foreign",
    "PG.OptWire.C99_short_length",
    "PG.OptWire.C99_largest",
    "PG.OptWire.C99_total"
   ],
   "note": "C99_same is per call of update; C99_position and C99_foreign for whole streams whose length words are proper and not the largest one; C99_short_length and C99_largest are about the others; C99_total: update in C always ends."
  },
  {
   "property": "C100",
   "status": "proved",
   "theorems": [
    "PG.CursorArgs.C100_direction",
    "PG.CursorArgs.C100_read",
    "PG.CursorArgs.C100_zero",
    "PG.CursorArgs.C100_next",
    "PG.CursorArgs.C100_seek",
    "PG.CursorArgs.C100_bad_whence",
    "PG.CursorArgs.C100_case",
    "PG.CursorArgs.C100_number",
    "PG.CursorArgs.C100_refused",
    "PG.CursorArgs.C100_history",
    "PG.CursorArgs.C100_position",
    "PG.CursorArgs.C100_default"
   ],
   "note": "Full for values that are None, bool, int, str, bytes or list; the quantity of read is None or an int, the offset of seek an int, a str or None. upper (str.upper) is a parameter. A number that is no whence raises AttributeError instead of the TypeError intended (C100_bad_whence); read(0) accepts any direction (C100_zero)."
  },
  {
   "property": "C101",
   "status": "proved",
   "theorems": [
    "PG.FetchWire.C101_rows",
    "PG.FetchWire.C101_pieces",
    "PG.FetchWire.C101_turn",
    "PG.FetchWire.C101_start",
    "PG.FetchWire.C101_constructor",
    "PG.FetchWire.C101_step",
    "PG.FetchWire.C101_lost",
    "PG.FetchWire.C101_failed",
    "PG.FetchWire.C101_fine",
    "PG.FetchWire.C101_fetch",
    "PG.FetchWire.C101_end",
    "PG.FetchWire.C101_source"
   ],
   "note": "The commands are sent already (C15); COPY run as a query makes the constructor raise; nothing else uses the connection in between (C42 has that, over batches); of answers with an error C101_end says only that they do not end the iteration normally (more, over batches, is C42_stop)."
  }
 ]
}
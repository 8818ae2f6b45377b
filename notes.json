{
 "C09": {
  "status": "partial",
  "note": "The property is false of the code: Tuple.parse does not notice a truncated last attribute (C09_violated is a machine-checked counterexample). C09_truncated_row_partial says exactly what such a row parses to."
 },
 "C07": {
  "note": "Bind/FunctionCall write len(args) for both counts, so the round trip needs one format per argument (C07_bind_needs_formats shows the failure otherwise)."
 },
 "C10": {
  "status": "partial",
  "note": "Proved for replies that conform to the protocol when read as one batch and whose rows parse. The unrestricted claim is false: machine-checked counterexamples C10_equal_notifications_depend_on_batching, C10_messages_before_fatal_depend_on_batching, C10_violation_depends_on_batching."
 },
 "C11": {
  "status": "partial",
  "note": "Proved for every interruption point for collected messages, position, error and status. Missing because false of the code: asynchronous messages handled before the interruption are given to the hook again (C11_notification_repeated); a third complete delivery of the same batch starts at the wrong place (C11_second_redelivery_fails)."
 },
 "C12": {
  "status": "partial",
  "note": "For a reply in one batch: completes non-fatally exactly on the complete replies of the protocol (soundness and completeness against an independent grammar), for all command sequences without function calls; for several batches under the assumptions of C10. False of the code for function calls that fail (C12_function_error_violates), for Describe of a portal without rows (C12_describe_portal_nodata_violates), a leading Flush (C12_flush_first_fails) and localized severities (C12_localized_error_is_fatal)."
 },
 "C14": {
  "status": "partial",
  "note": "Everything but one point is proved for an arbitrary server. Missing because false of the code: the type of the message taken for the OK after the password is not checked (C14_ok_of_any_type). crypt and MD5 are parameters."
 },
 "C15": {
  "note": "For every schedule of short writes, would-block results, socket errors and interrupted sends. Interrupts (signals) between two Python statements other than at the socket calls are not modelled. Findings stated as theorems: a batch that is the same Python object as the previous one is not sent again (C15_same_object_is_not_sent_again), step() revives a failed transaction's pending output (C15_step_revives_failed)."
 },
 "C16": {
  "note": "Socket, TLS and negotiation outcomes are arbitrary parameters."
 },
 "C18": {
  "note": "Floats are modelled as their IEEE bit images. inet: the address comes back but the prefix length is sent as 0 and the received mask is dropped (C18_inet_prefix_is_zero)."
 },
 "C20": {
  "status": "partial",
  "note": "Records: round trip and an exact characterization of accepted data. Arrays: round trip; the claim that malformed array data is refused is false (C20_array_truncation_accepted, C20_array_unpack_never_ends: the unpacker loops for ever on some data); C20_array_unpack_ends_partial says when it ends."
 },
 "C21": {
  "note": "Integer date/time formats (all servers since 8.4 by default); float formats are not modelled. First and last date/microsecond are sent as -infinity/infinity. Offsets with seconds are rounded down (C21_timetz_seconds_lost), 24:00 is refused (C21_time_24_refused). The zone of a timetz is sent with the sign opposite to the server's (C21_timetz_sign)."
 },
 "C22": {
  "note": "The codec of the connection is a parameter. A repeated key is accepted if the number in front is that of the different keys (C22_duplicate_accepted)."
 },
 "C19": {
  "note": "Decimals are modelled as Python's (sign, digits, exponent) tuples; rounding contexts do not enter. NaN and infinities are refused (C19_special_refused)."
 },
 "C23": {
  "note": "The pure Python codec; int(.., 8) is modelled for ASCII text. Finding: some escapes PostgreSQL refuses are accepted (C23_malformed_accepted)."
 },
 "C24": {
  "note": "Construction, printing, concatenation, repetition, length and wire form are proved. C24_eq_same_kind: equality holds only between values of which both or none has one bit (C24_eq_single_raises). C24_getbit_never: reading a bit by index always fails.",
  "status": "proved"
 },
 "C34": {
  "note": "For every byte stream of CopyData messages followed by anything, in every chunking. Finding: for length words below 4, which no server sends, the count depends on the chunking (C34_short_length)."
 },
 "C35": {
  "note": "Producer, sockets and callables are arbitrary scripts; StatementProducer's handling of the connection is C72; StatementReceiver's is C73. Finding: a receiver added back by reconcile() only after further steps has silently lost data (C35_late_reconcile). Finding: leaving the block early between messages without an exception counts as success (C35_early_leave)."
 },
 "C25": {
  "note": "types/__init__.py Array (all construction, indexing, slicing and wire conversion). Findings proved as theorems: elements[-1] through get_element at the last index fails as the code computes it, index just past the end, lower-only slices, deeper lists accepted, tuples taken apart, long addresses."
 },
 "C26": {
  "note": "types/__init__.py Row, python/functools.py process_tuple (the pure-Python version, not the C port), driver/pq3.py record packing/unpacking. Findings: a repeated column name hides the earlier column; get(-len) returns None while [-len] works."
 },
 "C27": {
  "note": "postgresql/string.py quoting, against a specification of PostgreSQL's lexer (string constants with continuation over newlines, quoted identifiers, unquoted words). Standard_conforming_strings on; C27_literal_escapes/C27_backslash say what holds when it is off. Findings: C27_upper_case_lost, C27_backslash, C27_empty_ident."
 },
 "C28": {
  "note": "split_using is proved equal to cutting outside quotes for every text and limit (single-character separator and quote). Unicode predicates are parameters with their ASCII facts. Finding: C28_not_refused."
 },
 "C29": {
  "note": "The regular expression is modelled by what Python's matcher does with it (documented at each definition). Partial because unsplit(split(s)) = s is false for texts ending in E' or $x$x$ (C29_overlap_fails), proved for every other text; dollar quotes with line breaks are mis-split (C29_newline_in_dollar_quote)."
 },
 "C30": {
  "note": "Whole of pgpassfile.py. Findings: comment lines (#...) are not recognized by parse and become entries when they have enough colons (C30_comment); a lone backslash is kept."
 },
 "C31": {
  "note": "Whole of resolved/riparse.py for str. unsplit(split(s)) = s holds for every text and the division is characterized uniquely by an independent grammar (Parts). The dictionary round trip holds for every parameter set an RI can carry (DictOk/NetlocOk); what they exclude is shown lost by C31_not_carried."
 },
 "C32": {
  "note": "Whole of iri.py. Carried lists exactly what an IRI carries without loss; what it leaves out is shown lost in C32_not_carried (ssl=True gives a scheme parse refuses, slash in database not escaped because of swapped re.sub arguments, search_path of pair-list settings dropped, blanks in socket paths). re.sub's template expansion is a parameter that is the identity without backslashes."
 },
 "C33": {
  "note": "Line level for any lines; file level for values on one line and closed quotes in the lines edited (C33_unclosed shows why). Read-back needs the same spelling (C33_case) and names without dots (C33_dotted)."
 },
 "C38": {
  "note": "Exact accounting for any number of lock objects and any program that does not nest (C38_flat_partial), refused tries leave nothing behind (C38_refused). The nested half of the property is false of the code: C38_nested_release, C38_nested_steals; C38_failed_acquire shows a failing wait keeps the locks granted before it."
 },
 "C39": {
  "note": "Exactly-once, order, discarding, wires and idle events for all schedules; Connection.iternotifies (C39_iter*) and the timeouts (C39_timeouts) too. Findings: C39_poll_blind (timeout 0 never reads the wires), C39_poll_pending, C39_idle_while_pending, C39_lost, C39_bad_blocks (one undecodable notification stops all)."
 },
 "C40": {
  "note": "Nested with-blocks refine a denotational meaning for every program, every server answer and every loss of the connection (C40_meaning_partial, C40_atomic_partial); object states (C40_finished, C40_states); one statement (C40_one_statement). Missing: programs that leave a block by an exception outside Exception, for which the claim is false: C40_interrupt."
 },
 "C48": {
  "note": "Refinement of a transaction-object-free meaning for every history of calls (C48_meaning_partial), with readable corollaries for rollback and commit. Missing: servers on which COMMIT fails, for which the claim is false: C48_failed_commit. Further findings: C48_silent_rollback, C48_switch_discards, C48_lost_close."
 },
 "C41": {
  "note": "Cache coherence for every history, unconditionally for reported parameters and for the others under the stated conditions (C41_coherent_partial, C41_program_partial), blocks restore whatever their body does (C41_restored_partial), path round trip, exact subscription semantics (C41_subscribed, C41_message). The conditions are necessary: C41_rollback_stale, C41_letter_case, C41_units, C41_path_refused."
 },
 "C49": {
  "note": "Position invariant for every call (C49_position), consecutive reads, pieces, exhaustion, iteration for all results and sizes. The documented symmetry holds for reads, RELATIVE seeks and non-negative ABSOLUTE/FROM_END seeks in every sequence (C49_symmetry_partial, C49_backward_as_reversed); it is false for FORWARD/BACKWARD seeks and negative absolute positions (C49_not_symmetric, C49_backward_relative). Server FETCH/MOVE semantics assumed as PostgreSQL documents them."
 },
 "C42": {
  "note": "FetchAll over the model of protocol transactions: every row once, in order (C42_fetch_all), a stream that ends has ended well (C42_stop), a row that cannot be decoded is never skipped (C42_decode_error). MultiXactStream over the server's portal: C42_stream, C42_stream_prefix. 'Ends only if complete' holds for it only if nothing else uses the connection (C42_stream_stop_partial); otherwise false: C42_stream_error_lost, C42_other_error_loses_rows, C42_stream_error_forgotten; also C42_chunksize_changed, C42_chunksize_zero, C42_stream_decode_error."
 },
 "C44": {
  "note": "chunk, interlace, find for all inputs. The documented example of chunk is wrong (C44_empty_chunk, C44_empty_chunk_iff); chunk size 0 never ends (C44_zero)."
 },
 "C50": {
  "note": "Resolution: C50_resolve, C50_history, C50_domain hold for every finite catalog and history; types that contain themselves raise TypeError (C50_recursive_type). Formats: columns are right unless a container holds a type whose binary format is not text (C50_output_partial, C50_regclass_array); parameters without packer are declared binary but encoded as text (C50_input_partial, C50_input_wrong, C50_regclass)."
 },
 "C51": {
  "note": "For every server behaviour, packing and failure. Findings: a load that raises outside a block keeps the chunks before the failure (C51_not_atomic); a statement without parameters is executed once before load_rows raises (C51_no_parameters)."
 },
 "C43": {
  "note": "split and normalize: proved for every version. unsplit: C43_unsplit_partial, wrong for a state without level (C43_unsplit_no_level). Findings: four numbers lose the state fields (C43_four_numbers); a packager's suffix, as in '10.5 (Debian ...)', raises ValueError (C43_packaged)."
 },
 "C45": {
  "note": "All class statements are in the model. C45_error_partial leaves out 22019 and class 54, for which the claim is false (C45_escape_character: the class name is bound twice; C45_program_limit: PLEError is made from the builtin OverflowError). Warnings: no exception."
 },
 "C53": {
  "note": "From the bytes of the documented message body to the attributes of the exception. creator/database/__cause__ are not modelled; the decoder and str.upper are parameters. Finding: an error without code or message raises KeyError (C53_missing)."
 },
 "C47": {
  "note": "Partial: settings of the environment (PGTZ, PGOPTIONS, ...) are dropped (C47_env_settings), PGREQUIRESSL=1 gives a pair instead of a mode (C47_requiressl), a unix socket with a password file but no password cannot be opened (C47_unix_passfile). The operating system is a parameter; parsing of the command line by optparse is not modelled."
 },
 "C54": {
  "note": "Codecs, str() and getaddrinfo are parameters. NAMEDATALEN truncation not modelled. Findings: a search_path of None is removed from the caller's own settings dictionary but still sent as the text 'None' (C54_search_path_none); a NUL in a value injects further startup parameters (C54_nul); repr() of a connector shows the password (C54_repr)."
 },
 "C46": {
  "note": "Libraries from Python modules and callable symbols not modelled; Category not modelled. Findings: constants and procedures are not loaded at bind time although documented (C46_lazy); a constant whose value is None is prepared and run again at each access (C46_none)."
 },
 "C55": {
  "note": "Histories in which a step left a half-failed transaction (only possible if a send failed fatally in it, C55_never_half_failed) are excluded in C55_closed_for_good. Findings proved as theorems: a second connect() after a failed one always raises AttributeError (C55_connect_again_fails), synchronize() reopens a lost connection whose socket works (C55_synchronize_reopens), an interrupted close() leaves it open (C55_close_interrupted), close() succeeds without the goodbye if it cannot be sent (C55_no_goodbye)."
 },
 "C56": {
  "note": "Instructions only; Few/Pend invariant over histories; close/synchronize/trash excluded because they do swallow errors (C56_*_swallows)."
 },
 "C57": {
  "note": "From the end of the negotiation on; before the first ReadyForQuery of an Instruction the status is the one the connection was established with (a parameter)."
 },
 "C52": {
  "note": "Findings proved as theorems: a statement that is not a COPY is refused only after it has been executed (C52_not_copy_is_run); after an interrupted load the server's error is raised by the next, unrelated operation (C52_next_operation_fails)."
 },
 "C58": {
  "note": "Findings: with one column a NULL in the first row and no row are the same for first() (C58_first_null); column() turns a NULL, and any undecodable value, into TypeError because of next(range) instead of the error that names the column (C58_column_null, C58_column_no_columnError); a SELECT without columns makes first() return the count (example)."
 },
 "C59": {
  "note": "Proved for everything but listen/unlisten. C59_listen_partial: these name the channel asked for only if the name is a lower-case word of at most 63 characters (C59_listen_iff: exactly then), because the name is not quoted; C59_listen_injects, C59_listen_folds and C59_listen_not_all are the counterexamples. Text without NUL, standard_conforming_strings on. Names must not be empty (C59_notify_empty)."
 },
 "C60": {
  "note": "C60_prepare_asks, C60_from_id_asks: what is asked of the server. C60_prepared, C60_prepared_sound, C60_prepare_error: what is returned. C60_query_rows, C60_query_command, C60_query_first, C60_query_raises: in one step. C60_names: by name; finding C60_names_repeated: of columns with the same name only the last can be had by name. That all parameters are declared binary is the finding of C50."
 },
 "C61": {
  "note": "C61_text_partial excludes bpchar (C61_character_cut: cast to character(1), the argument is silently cut) and types that identify() was used for (C61_identified_unnamed). Keyword calls always raise NameError or AttributeError (C61_keywords_raise, C61_keywords_never). Calls and sets are full for positional arguments."
 },
 "C62": {
  "note": "Proved for every sequence of answers of the system. Witnesses of behaviour a user may not expect: C62_no_address (TypeError for the configuration initdb writes), C62_address_blank, C62_crash_left_file, C62_stop_race (TypeError), C62_exit_code (last_exit_code None)."
 },
 "C63": {
  "note": "C63_target_partial: signals go to the process the file named just before or to one the object started; that this is the server is refuted by C63_wrong_process and C63_ended_process. C63_start_settings: start(settings=...) never starts (AttributeError). C63_with_leaves: a server is left running when the wait of __enter__ raises. The rest is full."
 },
 "C64": {
  "note": "C64_outside (safety) is full; C64_removed_partial is for trees without links to directories; C64_links_fail proves that with any such link drop raises and the directory stays. Nothing else changes the files meanwhile; permissions are not modelled."
 },
 "C65": {
  "note": "Finding C65_encoding_case: with a password, encoding='SQL_ASCII' (upper case) raises LookupError though without a password the same call succeeds. The temporary file's removal is Python's (with block)."
 },
 "C66": {
  "note": "C66_standard_partial leaves out SHIFT_JIS_2004, which C66_shift_jis_2004 proves is mapped to the codec euc_jis_2004. C66_case: get_python_name itself minds case (only the caller for client_encoding lowers)."
 },
 "C67": {
  "note": "Partial since false: C67_restored_partial needs that the names are not among the builtins before (C67_lost, C67_previous_lost: they are removed). C67_new_left: `new` stays. C67_interrupted, C67_entering_interrupted: an interrupt leaves the schema, and while entering, the names. C67_clean is for operations that all succeed."
 },
 "C68": {
  "note": "C68_configure_partial (and what follows from it) excludes values with single quotes and arguments ending with a dash or double quote: C68_configure_end, C68_configure_quote show what happens to these. Findings: C68_vendor (ValueError for every packaged version such as 'PostgreSQL 13.4 (Debian ...)'), C68_installed (includedir_server is always None), C68_failing (AttributeError when pg_config fails)."
 },
 "C69": {
  "note": "Partial because the factory of rows fails for results with two columns of the same name: the attribute map it is given has fewer names than the row has values (C69_duplicate_columns, C69_factory_incomplete). Everything else is proved without restriction. Python's isidentifier and iskeyword are parameters."
 },
 "C70": {
  "note": "Partial because the code is wrong: `/` of points raises TypeError (only __div__ of Python 2 is defined) and __div__ has a wrong sign, so that it is right exactly if the divisor lies on the axis or the dividend has no x (C70_division_partial, C70_division_false); perpendicular compares the quotient of the slopes to -1 instead of the product and is wrong both ways (C70_perpendicular_false); parallel and perpendicular raise ZeroDivisionError on vertical segments. Arithmetic is exact (an ordered field); rounding is not modelled, NaN only for boxes (C70_box_nan)."
 },
 "C71": {
  "note": "Proved against the published tables of FIPS 46 (Spec/Crypt.lean), bit by bit; the tables are checked against the standard by kernel evaluation, everything else by induction over keys, rounds and iterations. Salts with characters other than the 64 digits are covered by C71_length, C71_verify, C71_eight and C71_salt_two only: no textbook result is defined for them."
 },
 "C72": {
  "note": "Proved for every answer in the grammar of Spec/CopyTo (which ends with ReadyForQuery) and rows below 2 GiB. Finding (C72_trailing_incomplete): when the last rows, ReadyForQuery and a part of a later asynchronous message arrive in one read, the assertion in confiscate raises AttributeError and the rows are not published. Not modelled: socket exceptions; the effect of interrupt() is in what the server sends."
 },
 "C73": {
  "note": "C73_transmitted, C73_success, C73_failed, C73_interrupted for every history; findings C73_torn_message (a fault in the middle of a message: CopyFail becomes part of the message) and C73_success_without_commit (using the destination's connection during the COPY: it fails, but leaving returns)."
 },
 "C74": {
  "note": "The end-to-end composition of C72 and C73. Finding: a transfer to several destinations is not atomic (C74_not_atomic)."
 },
 "C75": {
  "note": "Findings: reconciling after the iteration went on loses data silently (C75_late_reconcile); leaving the loop early at a message boundary commits a part of the rows (C75_break_commits)."
 },
 "C76": {
  "note": "Proved for transactions whose batches contain no two equal asynchronous messages (C76_delivered says what happens otherwise). False of the code, shown by witnesses: of equal notifications in one batch one is dropped (C76_equal_dropped); while discarded statements are closed asynchronous messages are dropped (C76_closing_drops); a callback that raises, or an encoding Python does not have, leaves settings stale (C76_callback_stale, C76_unknown_encoding); notices during connect are dropped (C76_greeting_notices)."
 },
 "C77": {
  "note": "Parameters and composites are proved in full; columns for rows of cursors and for first() with several columns (C77_column_partial). False of the code for first() of one column, which raises the routine's own exception (C77_first_bare), column() (see C58), cursors of cursor_from_id, which raise AttributeError (C77_cursor_from_id). An array's exception does not say which element it was (C77_element)."
 },
 "C78": {
  "note": "C78_sent: the format (Sent, Spec/RoundTrip, over the field layouts of Spec/Types) is what is packed, and is unpacked as it says; by induction over Sent. C78_comes_back: everything that is packed is Sent and comes back Alike; by induction over the type. C78_echo: through bind and row. C78_python: the Array class of C25 meets the laws."
 },
 "C79": {
  "note": "Scoped to characters of the statement. Finding (C79_end): an error at the end of the input, where the server reports one more than the length, is shown under the last character, with its number."
 },
 "C80": {
  "note": "Partial because false of the code: with a column of type oid, xid, cid, tid, uuid, a domain over one of them, an anonymous record or an identified hstore column_types raises IndexError (their I/O is a pair, C80_types_raise, C80_bare), with a type not in the catalog UnboundLocalError; values of inet, cidr, bit(n), xml and of arrays without binary output are not of the class that is said (C80_otherwise); sql_column_types of a cursor without columns raises TypeError (C80_output_raises). Classes of values are a table, not derived from the models of the routines."
 },
 "C81": {
  "note": "Partial: a loop through an ElementSet forgets the coverage and ends only when the stack is used up (C81_set_unprotected); graphs without sets are complete. Blank lines and blanks at the ends of lines are not part of what is shown."
 },
 "C82": {
  "note": "Partial because: executemany also accepts mappings with extra keys which execute refuses (C82_extra_keys); a statement without markers is executed once and then raises (C82_no_parameters); character, real, double precision, numeric, date, time, timetz and interval columns have no type code (C82_no_code); TimestampFromTicks puts the day of the week into the microseconds (C82_timestamp_ticks)."
 },
 "C83": {
  "note": "Partial because an interrupt while connecting leaves the socket open (C83_socket_interrupted). Findings: without sslrootcrtfile no authority is trusted, so the default mode cannot connect to any server with SSL (C83_prefer_without_root); the server's name and revocation are not checked (C83_name_unchecked, C83_revocation); a factory whose files failed to load keeps the half-made context and never works again (C83_broken_forever); a key file without a certificate file is ignored; find_available_port ignores its interface argument."
 },
 "C84": {
  "note": "Partial: the text before the first element of XML content is lost when it is read, so content that is plain text comes back as an empty tuple (C84_xml_text_lost). Texts Python reads as a number of 32 characters are taken for UUIDs too (C84_uuid_loose). path_pack sends the number of coordinates where the server expects the number of points (C84_polygon_count; not used by connections), and the packing functions of oidvector and int2vector always raise (C84_vectors_never). xml.etree.ElementTree is a parameter of which only that it reads what it writes is assumed (a library with that property is given)."
 },
 "C85": {
  "note": "The connection stays usable in this model (C55, C56 have lost connections), and user-chosen names are not of the form py:0x... The interpreter's choice of free addresses and of the moments of collection is arbitrary."
 },
 "C86": {
  "note": "Partial because the unrestricted claim is false: outside of a block a statement that returns rows but cannot be declared (INSERT ... RETURNING) raises (C86_not_declarable), and chunks() of a statement_from_id there raises AttributeError (C86_from_id_chunks); column() of a COPY raises TypeError (C86_copy_column). The server is a specification of Parse/Bind/Execute/Sync, DECLARE and FETCH."
 },
 "C87": {
  "note": "Partial because exactness is false of the code: mktimetuple truncates 1000000 * (ts - floor(ts)), so 00:00:01.000001 is read as 00:00:01 (C87_time_lost); the last microseconds of 9999 raise OverflowError when read back and the first of year 1 read as the value for -infinity (C87_timestamp_lost). The bytes of a double are modelled by its value."
 },
 "C88": {
  "note": "The option -f does not work at all: C88_settings_file proves that any settings file with a setting in it raises NameError; C88_empty_file: an empty configuration file raises IndexError."
 },
 "C89": {
  "note": "Partial: an array whose elements are themselves lists of different lengths cannot be copied or unpickled (C89_not_copied); copies are proved for elements that are not lists."
 },
 "C90": {
  "note": "Finding: the exception is NameError instead of the AttributeError meant (C90_error)."
 },
 "C91": {
  "note": "The environment is not put back entirely (C91_environment_lost): os.environ becomes a plain dictionary, so variables set by the program stay in what child processes inherit, and later settings of os.environ do not reach child processes. What Python does (compiling, reading, finding modules) is a parameter; abbreviations of --context and bundled short options are not modelled."
 },
 "C92": {
  "note": "For \\i the claim fails for names without a slash that are no temporary file: the file of the lower-cased name is executed (C92_i_lowercases). shlex.split, the editor, Python's console and executed files are parameters."
 },
 "C93": {
  "note": "Built-ins that did not exist before are left bound to None (C93_builtins_left): the loop that would delete them asks for overloads that are None and uses an undefined name. After a run that ends without an exception the current directory stays in the library path; a script that cannot be read leaves the connection open. The trace file and failures of closing are not modelled."
 },
 "C94": {
  "note": "Partial: the claim without bounds is false of the code (C94_not_the_same, C94_signed, C94_wraps, C94_read_malformed, C94_read_negative)."
 },
 "C95": {
  "note": "Parsing and packing in C are proved in full against the wire format, and equal to the Python functions where both give a result; C rejects a row whose last attribute is cut short, which Python accepts (C09). Batches are partial: a Void gives four bytes in C (C95_void), and a COPY line of 2^31-4 bytes is sent by C while Python raises (C95_large)."
 },
 "C96": {
  "note": "C96_recut: with rows that the C function accepts, the state of the transaction is equal to that of the Python machine on some recutting of the reads. C96_same_partial compares with the Python machine on the same reads; it is partial exactly as C10 is (replies with errors or violations depend on batching in Python already). A row that is cut short is accepted without C and raises with it (C96_malformed); an empty batch raises IndexError without C and does not with it (C96_empty)."
 },
 "C97": {
  "note": "All sixteen functions in use. Arguments that are not int (floats and objects with __int__, which older versions of Python convert) and buffers other than bytes are not modelled."
 },
 "C98": {
  "note": "C98_row_values is independent of both implementations. Partial as stated: C98_list and C98_iterable are the differences; all callers in the driver pass tuples."
 },
 "C99": {
  "note": "C99_same is per call of update; C99_position and C99_foreign for whole streams whose length words are proper and not the largest one; C99_short_length and C99_largest are about the others; C99_total: update in C always ends."
 },
 "C100": {
  "note": "Full for values that are None, bool, int, str, bytes or list; the quantity of read is None or an int, the offset of seek an int, a str or None. upper (str.upper) is a parameter. A number that is no whence raises AttributeError instead of the TypeError intended (C100_bad_whence); read(0) accepts any direction (C100_zero)."
 },
 "C101": {
  "note": "The commands are sent already (C15); COPY run as a query makes the constructor raise; nothing else uses the connection in between (C42 has that, over batches); of answers with an error C101_end says only that they do not end the iteration normally (more, over batches, is C42_stop)."
 }
}
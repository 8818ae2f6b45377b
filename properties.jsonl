{"id": "C01", "title": "Message stream reads are independent of chunking", "statement": "However the bytes received from the server are cut into write() calls, and whenever next_message()/read() calls are interleaved with them, the sequence of (type, body) messages handed out is the sequence obtained by parsing the concatenation of everything written once.", "quantifier": "every byte sequence, every way of cutting it into writes, every interleaving with next_message and read(n)", "why_tests_cant": "socket reads split messages at arbitrary offsets; tests fix a handful of splits", "anchors": ["postgresql/protocol/pbuffer.py: pq_message_stream.write, next_message, read, _get_message"]}
{"id": "C02", "title": "Framing is inverted by the message stream", "statement": "Writing the serialized form (type byte, big-endian length, body) of any list of messages into the stream and reading gives back exactly that list in order and leaves the stream empty; a trailing incomplete message yields nothing and stays buffered.", "quantifier": "every list of messages with bodies shorter than 2^32-4 and every proper prefix of a further message", "why_tests_cant": "unbounded message counts, sizes and contents", "anchors": ["postgresql/protocol/pbuffer.py: pq_message_stream", "postgresql/protocol/element3.py: Message.bytes"]}
{"id": "C03", "title": "len, has_message and next_message agree", "statement": "For any buffered content, len(stream) equals the number of messages read() would return, has_message() is true exactly when next_message() returns a message, and neither of them changes what is later read.", "quantifier": "every reachable buffer state", "why_tests_cant": "infinitely many buffer states", "anchors": ["postgresql/protocol/pbuffer.py: __len__, has_message, next_message, read"]}
{"id": "C04", "title": "Buffer compaction never loses or duplicates bytes", "statement": "At any time the unread bytes (getvalue) are exactly the bytes written minus the whole messages handed out; the internal discarding of consumed data is invisible.", "quantifier": "every sequence of write/next_message/read/truncate operations", "why_tests_cant": "compaction triggers only past size thresholds and at block-boundary alignments", "anchors": ["postgresql/protocol/pbuffer.py: _rtruncate, getvalue, truncate, next_message, read"]}
{"id": "C05", "title": "A message with an impossible length is reported, never misparsed", "statement": "If the next buffered message announces a length below four, next_message and read raise an error and leave the unread bytes untouched; they never return a message for it.", "quantifier": "every buffer state", "why_tests_cant": "all malformed headers at every position", "anchors": ["postgresql/protocol/pbuffer.py: _get_message, read"]}
{"id": "C06", "title": "Backend message elements round trip", "statement": "For every well-formed element the server can send (notify, parameter status, command complete, ready, notice/error fields, function result, attribute types, row descriptions, rows with NULLs, key data, authentication requests, COPY announcements), parsing the serialized form returns an equal element.", "quantifier": "every field value within the wire format's range (NUL-free strings, counts < 2^16, sizes < 2^31)", "why_tests_cant": "infinite value domain", "anchors": ["postgresql/protocol/element3.py: Notify, ShowOption, Complete, Ready, Notice, Error, FunctionResult, AttributeTypes, TupleDescriptor, Tuple, KillInformation, Authentication, CopyBegin"]}
{"id": "C07", "title": "Frontend message elements round trip", "statement": "For every startup, cancel, SSL request, parse, bind, execute, describe, close, function call and password element, parsing the serialized form returns an equal element.", "quantifier": "every field value within range; for bind, as many formats as arguments", "why_tests_cant": "infinite value domain", "anchors": ["postgresql/protocol/element3.py: Startup, CancelRequest, NegotiateSSL, Parse, Bind, Execute, DescribeStatement, DescribePortal, CloseStatement, ClosePortal, Function, Password, Query, CopyFail"]}
{"id": "C08", "title": "Batched serialization is the concatenation of individual serializations", "statement": "Sending a mixed sequence of message objects, raw COPY lines, and row tuples produces exactly the concatenation of their individual wire messages, regardless of how equal-typed items are grouped; a peer's message stream reads exactly those messages.", "quantifier": "every sequence of messages, COPY lines and rows", "why_tests_cant": "unbounded sequences and run lengths", "anchors": ["postgresql/protocol/element3.py: cat_messages", "postgresql/protocol/pbuffer.py: pq_message_stream"]}
{"id": "C09", "title": "Row parsing of malformed data", "statement": "A row message whose sizes overrun the body is rejected rather than silently shortened.", "quantifier": "every row message body", "why_tests_cant": "all truncations of all rows", "anchors": ["postgresql/protocol/element3.py: Tuple.parse", "postgresql/types/io/lib.py: record_unpack"]}
{"id": "C10", "title": "Protocol transaction result is independent of read batching", "statement": "Feeding the server's reply to a transaction in any batching of messages ends in the same transaction state (same command position, same outcome, same collected completed messages) as feeding it one message at a time.", "quantifier": "every reply sequence, every command sequence and every batching", "why_tests_cant": "batch boundaries are decided by network timing", "anchors": ["postgresql/protocol/xact3.py: Instruction.state_machine, standard_put"]}
{"id": "C11", "title": "Re-delivering a batch after an interruption is idempotent", "statement": "If processing of a received batch is interrupted and the same batch is delivered again, the final state equals that of an uninterrupted delivery: no message is processed twice or dropped.", "quantifier": "every batch, every interruption point inside it", "why_tests_cant": "interrupts (signals) arrive at arbitrary points", "anchors": ["postgresql/protocol/xact3.py: Instruction.standard_put, last"]}
{"id": "C12", "title": "A transaction completes exactly when the server has answered everything", "statement": "An instruction reports completion only after the terminating ready message for its last synchronization point (or a fatal error) was received; a non-fatal error makes it skip to the next synchronization point and complete non-fatally.", "quantifier": "every command sequence and every server reply sequence", "why_tests_cant": "all reply histories incl. errors at every point", "anchors": ["postgresql/protocol/xact3.py: Instruction"]}
{"id": "C13", "title": "COPY FROM STDIN is always terminated and the rest of the batch is re-issued", "statement": "When a batch contains a COPY FROM STDIN, after data has been sent the client sends exactly one COPY done/fail and a re-issue of exactly the commands following the query that started the copy, in order.", "quantifier": "every command sequence, position of the COPY, and data sequence", "why_tests_cant": "unbounded sequences", "anchors": ["postgresql/protocol/xact3.py: Instruction.sent_from_stdin, standard_sent"]}
{"id": "C14", "title": "Connection negotiation releases the password only on request and succeeds only after authentication", "statement": "The client's password-derived data is put on the wire only as the direct reply to an authentication request from the server, in the requested form; negotiation ends successfully only after an authentication-OK, a key-data and a ready message, and any error or unsupported method is fatal.", "quantifier": "every sequence of server messages", "why_tests_cant": "all adversarial server histories", "anchors": ["postgresql/protocol/xact3.py: Negotiation"]}
{"id": "C15", "title": "Every batch of outgoing messages is sent exactly once and in order", "statement": "However the socket accepts partial writes, would-block results or interruptions, the bytes that reach the server are exactly the serializations of the queued batches in order, none repeated, none lost; reported completion implies all bytes were sent.", "quantifier": "every sequence of batches and every schedule of partial sends, EAGAIN/EINTR results and errors", "why_tests_cant": "OS scheduling of partial writes", "anchors": ["postgresql/protocol/client3.py: Connection.write_messages, send_message_data, standard_write_messages"]}
{"id": "C16", "title": "sslmode policy", "statement": "With sslmode require a connection is only ever established over SSL; with disable no SSL request is ever sent; with prefer and allow both forms are attempted in the documented order; an unknown mode is refused before any attempt.", "quantifier": "every sslmode string, every socket list, every outcome of every attempt", "why_tests_cant": "all combinations of attempt outcomes", "anchors": ["postgresql/driver/pq3.py: Connection._establish", "postgresql/protocol/client3.py: Connection.connect, negotiate_ssl"]}
{"id": "C17", "title": "Discarded statements and cursors are closed exactly once on the server", "statement": "Identifiers handed to the connection's garbage lists are each closed by exactly one Close message, including identifiers added while a previous close batch is in flight.", "quantifier": "every history of garbage additions and transactions", "why_tests_cant": "finalizers run at arbitrary times", "anchors": ["postgresql/protocol/client3.py: Connection.take_out_trash, trash, push, complete"]}
{"id": "C18", "title": "Fixed-width typed I/O round trips", "statement": "Packing any in-range bool, int2, int4, int8, oid, tid, point-like pair, mac address, inet/cidr address or bit string and unpacking returns the same value; out-of-range integers are rejected instead of truncated.", "quantifier": "every value of each type", "why_tests_cant": "2^64-sized domains", "anchors": ["postgresql/types/io/lib.py", "postgresql/python/structlib.py", "postgresql/types/io/builtins.py"]}
{"id": "C19", "title": "NUMERIC transmission preserves value and scale", "statement": "Packing any finite decimal and unpacking the result gives a decimal of equal sign, digits value and scale.", "quantifier": "every finite decimal (arbitrary sign, digits, exponent within the wire range)", "why_tests_cant": "infinite domain, alignment of the decimal point to base-10000 digits has many cases", "anchors": ["postgresql/types/io/stdlib_decimal.py: numeric_pack, numeric_unpack", "postgresql/types/io/lib.py: numeric_pack, numeric_unpack"]}
{"id": "C20", "title": "Composite and array transmission round trips and rejects malformed data", "statement": "record_unpack(record_pack(r)) = r with NULL attributes preserved, array_unpack(array_pack(a)) = a; a record body that is truncated or has trailing bytes is rejected; unpacking terminates on every input.", "quantifier": "every attribute list, every array shape, every byte string", "why_tests_cant": "unbounded sizes; non-termination is not testable", "anchors": ["postgresql/types/io/lib.py: record_pack, record_unpack, array_pack, array_unpack, elements_unpack"]}
{"id": "C21", "title": "Date/time transmission round trips", "statement": "Packing and unpacking time, timetz, timestamp, timestamptz and interval values returns an equal value for negative, zero and large values alike, except the representable extremes reserved for infinity.", "quantifier": "every value of the Python types involved", "why_tests_cant": "microsecond-resolution domains", "anchors": ["postgresql/types/io/stdlib_datetime.py", "postgresql/types/io/lib.py: time64_pack, interval64_pack, timetz64_pack"]}
{"id": "C22", "title": "hstore transmission round trips and rejects duplicates", "statement": "Packing a mapping to hstore form and unpacking gives the same mapping; data with a repeated key is rejected.", "quantifier": "every mapping from strings to optional strings, every byte string", "why_tests_cant": "infinite domain", "anchors": ["postgresql/types/io/contrib_hstore.py"]}
{"id": "C23", "title": "bytea escape codec is lossless", "statement": "Decoding any bytes to the bytea escape text and encoding it back returns the same bytes; malformed escapes raise an error.", "quantifier": "every byte string", "why_tests_cant": "infinite domain", "anchors": ["postgresql/encodings/bytea.py"]}
{"id": "C24", "title": "Bit string values", "statement": "Constructing a bit string from its textual form and printing it returns the text; concatenation and length agree with the text.", "quantifier": "every string of 0s and 1s", "why_tests_cant": "infinite domain", "anchors": ["postgresql/types/bitwise.py: Varbit"]}
{"id": "C25", "title": "Array construction and nesting", "statement": "An array built from a regular nest has the nest's dimensions, flattens to its elements in row-major order and nests back to it; irregular nests are rejected; element access by index path agrees with the nest.", "quantifier": "every nested list of every depth", "why_tests_cant": "unbounded depth and shape", "anchors": ["postgresql/types/__init__.py: Array"]}
{"id": "C26", "title": "Row access", "statement": "A row built from a mapping or sequence returns the same value by position, by column name and by get; transform changes exactly the named columns.", "quantifier": "every row and key", "why_tests_cant": "unbounded column sets", "anchors": ["postgresql/types/__init__.py: Row"]}
{"id": "C27", "title": "Quoting of literals and identifiers is injection-safe", "statement": "For any string, the quoted literal (with standard_conforming_strings) or quoted identifier lexes as exactly one SQL token whose value is the string, whatever text follows it that does not begin with the quote character.", "quantifier": "every string and every continuation", "why_tests_cant": "infinite adversarial domain", "anchors": ["postgresql/string.py: quote_literal, quote_ident, escape_literal, escape_ident"]}
{"id": "C28", "title": "Qualified names split back", "statement": "split_qname(qname(parts)) = parts for every non-empty list of names, including names with dots and quotes.", "quantifier": "every list of strings", "why_tests_cant": "infinite domain", "anchors": ["postgresql/string.py: qname, split_qname, split_using, split_ident"]}
{"id": "C29", "title": "SQL splitting loses nothing and respects quotes", "statement": "Re-assembling the result of splitting a SQL string into quoted and unquoted parts returns the original string, and statements are cut only at separators outside quoted parts.", "quantifier": "every string", "why_tests_cant": "all nestings of quote forms", "anchors": ["postgresql/string.py: split, unsplit, split_sql, split_sql_str"]}
{"id": "C30", "title": "Password file lookup", "statement": "lookup_password returns the password of the first entry all of whose four fields match (equal or '*'), and a password-file line escaped by the documented rules parses back to its fields.", "quantifier": "every entry list, every key, every field content", "why_tests_cant": "infinite domain", "anchors": ["postgresql/pgpassfile.py"]}
{"id": "C31", "title": "Resource identifiers split losslessly", "statement": "unsplit(split(s)) = s for every string, and percent unescape inverts escape.", "quantifier": "every string", "why_tests_cant": "infinite domain of delimiters placement", "anchors": ["postgresql/resolved/riparse.py"]}
{"id": "C32", "title": "Connection IRIs", "statement": "Serializing connection parameters with the password obscured produces text independent of the password; parsing a serialized IRI gives back the parameters.", "quantifier": "every parameter set", "why_tests_cant": "infinite domain", "anchors": ["postgresql/iri.py"]}
{"id": "C33", "title": "Configuration file edits", "statement": "After alter_config or ConfigFile.update sets a parameter to a value, exactly one line of the file sets it, in whatever case, and to that value (read back by get, [], items, getset); set to None, no line sets it; every other parameter keeps its value and every other line stays verbatim (up to the final newline); the edited line keeps its name, spacing and trailing comment; an edit fails only for a new key in a file without lines. Lines are recognized by a fixed grammar (doubled quotes inside quoted values). Not true, and shown: keys of different case or with dots are not read back, an unclosed quote swallows the next line, del never works.", "quantifier": "every file content, every map of names to values (or None), every line", "why_tests_cant": "all file layouts", "anchors": ["postgresql/configfile.py: parse_line, unquote, alter_config, read_config, write_config, ConfigFile"]}
{"id": "C34", "title": "COPY stream message boundary tracking", "statement": "Tracking message boundaries over a chunked byte stream gives the same count of completed messages and the same pending remainder for every chunking, and a remainder of zero holds exactly on message boundaries.", "quantifier": "every byte stream and every chunking", "why_tests_cant": "chunk boundaries are arbitrary", "anchors": ["postgresql/copyman.py: WireState"]}
{"id": "C35", "title": "COPY transfers deliver all data to every live receiver", "statement": "Every receiver that is in the set, or is added back before the next step whenever it failed, gets exactly the produced messages, once and in order; when the operation is left anywhere, realignment puts every receiver still in the set on a message boundary; the transfer reports success only when the producer finished and every receiver has everything, and it does so when nothing fails.", "quantifier": "every chunking, every fault schedule", "why_tests_cant": "fault schedules are unbounded", "anchors": ["postgresql/copyman.py: CopyManager, ProtocolReceiver, CallReceiver, StatementProducer"]}
{"id": "C36", "title": "DB-API cursors fetch every row once and in order", "statement": "Any sequence of fetchone, fetchmany(n), fetchall and iteration returns consecutive, non-overlapping pieces of the result, however it arrives in chunks and also when the database fails on the way; the concatenation of everything fetched is a prefix of it, and a successful fetchall completes it.", "quantifier": "every result set and every operation sequence", "why_tests_cant": "all operation sequences", "anchors": ["postgresql/driver/dbapi20.py: Portal"]}
{"id": "C37", "title": "DB-API parameter conversion", "statement": "A query with positional or named parameter markers is converted to numbered parameters such that evaluating it with the produced argument list substitutes the user's arguments at their markers; text in quotes is untouched; mixing styles is refused.", "quantifier": "every query text and argument set", "why_tests_cant": "infinite domain", "anchors": ["postgresql/driver/dbapi20.py: percent_parameters, convert_keywords, Cursor._convert_query, Cursor.execute"]}
{"id": "C38", "title": "Advisory lock bookkeeping", "statement": "locked() is true exactly when the server holds the lock; nested acquire/release pairs take and drop the lock once; a failed non-blocking acquire leaves nothing held.", "quantifier": "every sequence of acquire/release operations and server answers", "why_tests_cant": "all nestings and contention outcomes", "anchors": ["postgresql/alock.py"]}
{"id": "C39", "title": "Notification manager delivers each notification once, in order", "statement": "Iterating the notification manager yields every connection's notifications exactly once and in per-connection order; timeouts yield an idle event only when nothing was pending; failed connections are discarded once. Connection.iternotifies() gives the notifications of its connection one by one, each once and in order, goes on until the connection is closed or fails (unless its timeout is 0), and refuses a negative timeout.", "quantifier": "every arrival schedule, every use of the connection between the items", "why_tests_cant": "timing", "anchors": ["postgresql/notifyman.py", "postgresql/driver/pq3.py: Connection.iternotifies"]}
{"id": "C40", "title": "Transaction objects follow the SQL transaction state", "statement": "start/commit/rollback follow the documented state machine: each issues exactly the right SQL (block or savepoint), illegal transitions raise, and leaving a with-block commits exactly when no exception occurred.", "quantifier": "every sequence of operations and nesting", "why_tests_cant": "all operation sequences", "anchors": ["postgresql/driver/pq3.py: Transaction"]}
{"id": "C41", "title": "Settings cache coherence", "statement": "Reading a setting after setting it returns the set value; a settings context manager restores the previous values on exit.", "quantifier": "every history of settings operations", "why_tests_cant": "all histories", "anchors": ["postgresql/driver/pq3.py: Settings, SettingsCM"]}
{"id": "C42", "title": "Streaming result sets return every row once", "statement": "Iterating rows or chunks of a statement returns each row of the result exactly once and in order, whatever the chunk size, however the rows arrive and whatever other statements are executed in between; chunks are full but for the last; iteration ends without an exception only if the whole result was received and the server reported no error; what was given before an error are the first rows.", "quantifier": "every result, chunk size, division of the reply into batches of messages, schedule of other statements, point of failure", "why_tests_cant": "boundary multiples of the chunk size", "anchors": ["postgresql/driver/pq3.py: MultiXactStream, SingleXactFetch, Chunks, Rows"]}
{"id": "C43", "title": "Version strings", "statement": "versionstring.split turns every version of up to three numbers, with or without a state (beta2, rc1, devel), into (major, minor, patch, state_class, state_level); normalize fills in 0 and 'final'; unsplit gives back the original text.", "quantifier": "every version number, state name and level, and white space around it", "why_tests_cant": "all numbers, states and spacings", "anchors": ["postgresql/versionstring.py: split, unsplit, normalize", "postgresql/driver/pq3.py: Connection.connect (version_info)"]}
{"id": "C44", "title": "Chunking and interlacing iterators", "statement": "chunk(it, n) yields consecutive pieces of at most n items whose concatenation is the input; interlace yields items of its inputs in rotation.", "quantifier": "every sequence and size", "why_tests_cant": "unbounded sequences", "anchors": ["postgresql/python/itertools.py"]}
{"id": "C45", "title": "SQL states and exception classes", "statement": "Every SQL state is raised as the exception class that declares it, else as the class of its first two characters, else as Error; a handler for a class of states catches all states of the class, known or not. The same for warnings.", "quantifier": "every text as SQL state; for the mapping itself every set of classes in every order", "why_tests_cant": "servers send states unknown to the library; all of them must be caught by their class's handler", "anchors": ["postgresql/exceptions.py: all classes, map_errors_and_warnings, code_lookup, ErrorLookup, WarningLookup"]}
{"id": "C46", "title": "SQL symbol libraries read and bind as written", "statement": "Every text is a symbol library file in exactly one way: a preface and sections. Loading it gives, for each name, the latest section of this name: its statement is exactly the lines between its marker and the next, with each `*[name]` line standing for the text of the latest symbol of this name before, without the comment lines on top (and trimmed for procedures); its type and method are those of the marker. It fails exactly if a reference is to no earlier symbol, or a type or method is unknown. A binding's attribute is, after any sequence of accesses, what its section says; a symbol that is not transient is loaded at most once, with exactly the needed questions to the database; a transient one is prepared at each access; preloaded symbols need no question after binding; unknown names are refused without a question.", "quantifier": "every file, every sequence of attribute accesses (failing ones included), every behaviour of the database", "why_tests_cant": "files, references between symbols and access sequences are unbounded; at-most-once must hold for every history including failures", "anchors": ["postgresql/lib/__init__.py:ILF.from_lines", "postgresql/lib/__init__.py:SymbolCollection", "postgresql/lib/__init__.py:Symbol", "postgresql/lib/__init__.py:Binding", "postgresql/lib/__init__.py:BoundSymbol", "postgresql/lib/__init__.py:BoundReference", "postgresql/lib/__init__.py:find_libsql"]}
{"id": "C47", "title": "Client parameters: precedence and password", "statement": "Of the sources of a client parameter or setting (options of the command line, the service, the environment, given parameters, defaults) the strongest that gives it counts; open() puts its keywords over its IRI over these, and dbapi20.connect its keywords over these. A password given counts; else the password file's; asking for a prompt always prompts; without it the standard input is never read. The keys used to find the password are not handed on. A unix socket given makes the host and port of environment, service and defaults not count. The kind of connector follows from the address.", "quantifier": "every environment, file system, service file, password file, IRI, keyword dictionary and sequence of options", "why_tests_cant": "the sources combine in unboundedly many ways, and all combinations have to give the documented precedence", "anchors": ["postgresql/clientparameters.py: defaults, envvars, normalize, resolve_password, collect, x_pq_iri, x_pg_service, x_settings, extrapolate", "postgresql/__init__.py: open", "postgresql/driver/dbapi20.py: connect", "postgresql/driver/pq3.py: Driver.fit"]}
{"id": "C48", "title": "DB-API connections: implicit transactions", "statement": "On a DB-API connection that is not in autocommit mode, statements belong to a transaction that ends with the next commit() or rollback(): after commit() returns, all of them are stored, in order; after rollback(), none is; a new transaction begins at once; in autocommit mode every statement is stored at once and commit() and rollback() raise InterfaceError; a second close() raises.", "quantifier": "every sequence of execute, commit, rollback, autocommit changes, close, every outcome of the statements, every point at which the connection is lost", "why_tests_cant": "all histories of calls, failures and losses", "anchors": ["postgresql/driver/dbapi20.py: Connection", "postgresql/driver/pq3.py: Transaction, Connection.close"]}
{"id": "C49", "title": "Scrollable cursors", "statement": "Reads on a cursor return consecutive rows: reading in pieces of any sizes gives every row once in order, a read that returns fewer rows than asked for means nothing is left in that direction, iteration gives every remaining row exactly once, the cursor never leaves the range from before the first to after the last row, and, as documented, a BACKWARD cursor over a query behaves under reads and seeks like a FORWARD cursor over the query in the reverse order.", "quantifier": "every result, every position, every sequence of read, next and seek calls", "why_tests_cant": "unbounded results and call sequences", "anchors": ["postgresql/driver/pq3.py: Cursor.read, Cursor.__next__, Cursor.seek, Cursor._which_way, _pq_xp_fetch, _pq_xp_move", "postgresql/documentation/driver.rst: Cursor Interface Points"]}
{"id": "C50", "title": "Type resolution and formats", "statement": "The I/O routines used for a type depend only on the server's catalog, not on which types were used before; resolving a type always ends; a domain is handled like its base type; every column is requested in the format in which it is decoded, and every parameter is declared in the format in which it is encoded.", "quantifier": "every finite catalog (composite, array, domain types of any nesting, also cyclic), every history of types used, every type", "why_tests_cant": "unbounded catalogs and histories", "anchors": ["postgresql/driver/pq3.py: TypeIO.resolve, TypeIO.resolve_descriptor, Statement._fini", "postgresql/lib/libsys.sql: lookup_type, lookup_composite"]}
{"id": "C51", "title": "Loading rows", "statement": "If load_rows returns, the statement was executed exactly once for every row, in order; if it raises, then outside of a transaction block what is stored is the effect of the first rows, a whole number of chunks, none of them twice, whatever caused the exception (a row that cannot be packed, a failing statement, the iterable).", "quantifier": "every sequence of rows, chunk size, server behaviour, point and cause of failure", "why_tests_cant": "all rows, chunk boundaries and failure points", "anchors": ["postgresql/driver/pq3.py: Statement.load_rows, load_chunks, _load_tuple_chunks, Connection._pq_push", "postgresql/python/itertools.py: chunk"]}
{"id": "C52", "title": "Loading COPY lines sends every line once, in order, and commits only complete loads", "statement": "When loading chunks of COPY lines through a COPY ... FROM STDIN statement returns, the server received, after whatever was sent or pending before, exactly Bind, Execute, Sync, then one CopyData message for every line of every chunk in order, then CopyDone and Sync, and (if the connection is still open) a final Sync: no line is lost, repeated, reordered or merged, however the socket splits or interrupts the sends. If the iterable of chunks raises after some chunks, the load raises that exception, the lines so far were sent, and whatever is done with the connection afterwards, what follows those lines is CopyFail or a Sync, never CopyDone.", "quantifier": "all histories of the connection before, all chunkings of all lines, all behaviours of the socket (partial sends, EAGAIN, errors) and all bytes of the server, all later calls", "why_tests_cant": "the interleaving of partial sends, steps and replies, and the points where the iterable may raise, are unbounded", "anchors": ["postgresql/driver/pq3.py: PreparedStatement._load_copy_chunks", "postgresql/protocol/client3.py: Connection.step, complete, push, synchronize, write_messages", "postgresql/protocol/xact3.py: Instruction.sent_from_stdin, put_copydata"]}
{"id": "C53", "title": "Server errors and notices as seen by the user", "statement": "Every error message of the server is raised as an exception that carries its SQL state, its message and all its other fields, with the class for the state; text that cannot be decoded is shown escaped, without loss. Notices go with the same contents to the message hooks of their creator and its factors in order, until one returns true; only otherwise to the library's own hook.", "quantifier": "every list of fields, byte string, decoder and arrangement of hooks", "why_tests_cant": "all contents, undecodable bytes included, and all hooks", "anchors": ["postgresql/driver/pq3.py: TypeIO.raise_server_error, decode_notice, _decode_failsafe, emit_server_message", "postgresql/message.py: Message.__init__, emit", "postgresql/protocol/element3.py: Notice.parse", "postgresql/exceptions.py: Error.fatal"]}
{"id": "C54", "title": "What a connection tells the server, and where it connects", "statement": "The startup message of a connector carries the client_min_messages default, the user, the database, and each of the given settings, every key at most once, the later source winning, each text encoded with the connector's encoding; a search_path given as a list of names is sent as text that the server reads back as exactly this list. If no key or value contains a NUL byte and no key is empty, the server reads from the message exactly these parameters. The password is encoded the same way. The connector goes to exactly the address(es) that were asked for: IPv4, IPv6, the resolved addresses of a host, or a unix socket; it is refused without user, host or port, or with a contradictory IP version. The text that shows the connection's address never depends on the password.", "quantifier": "every user, database, settings (dictionary or pairs), encoding, codec and resolver; all hosts, ports and IP versions", "why_tests_cant": "the settings, names in search_path and texts are unbounded; unambiguity of the message must hold for every parameter list", "anchors": ["postgresql/driver/pq3.py:Connector.__init__", "postgresql/driver/pq3.py:SocketConnector", "postgresql/driver/pq3.py:IP4", "postgresql/driver/pq3.py:IP6", "postgresql/driver/pq3.py:Unix", "postgresql/driver/pq3.py:Host", "postgresql/protocol/element3.py:Startup"]}
{"id": "C55", "title": "A closed or lost connection stays closed", "statement": "Once close() returned on a connection, the connection is closed, its socket is gone, and no later sequence of calls sends anything to the server, takes anything from it, or succeeds if it needs the server; closing again succeeds and changes nothing. If no send failed, close() sent, after everything that had to be finished, exactly one complete Terminate message and nothing else. A call that raises a fatal error leaves the connection closed in the same way (unless a synchronization is forced); a call that raises another server error leaves it open and idle. connect() on an open connection does nothing. The state names tell closed, busy, idle, idle in block and failed block apart.", "quantifier": "every history of calls (transactions, steps, COPY data, garbage, connecting, closing), every behaviour of the socket and of the server before and after, including partial sends and errors", "why_tests_cant": "histories before and after closing are unbounded, and the socket may split, delay or fail at every point", "anchors": ["postgresql/driver/pq3.py:Connection.close", "postgresql/driver/pq3.py:Connection.closed", "postgresql/driver/pq3.py:Connection.connect", "postgresql/driver/pq3.py:Connection.state", "postgresql/driver/pq3.py:Connection._pq_push", "postgresql/driver/pq3.py:Connection._pq_complete", "postgresql/driver/pq3.py:Connection._pq_step", "postgresql/protocol/xact3.py:Closing"]}
{"id": "C56", "title": "Errors of the server are never swallowed", "statement": "If a call on a connection (starting, stepping or completing a protocol transaction, giving COPY data, connect()) processes an ErrorResponse of the server, then that call or a later one raises the error, unless the failed transaction is still the current one, in which case nothing else can be started before it is reported. In particular completing a transaction returns normally only if no ErrorResponse was processed by it. Known exceptions, each with a witness: close(), synchronize() and the closing of abandoned cursors and statements ignore errors.", "quantifier": "all histories of calls, all partitions of the bytes of the server into receives, all socket errors at any point, all command sequences", "why_tests_cant": "the error may arrive in any batch, between any two steps, with any interleaving of calls and socket failures", "anchors": ["postgresql/driver/pq3.py: Connection._pq_push, _pq_complete, _pq_step, close", "postgresql/protocol/xact3.py: Instruction.standard_put", "postgresql/protocol/client3.py: Connection.complete, step, push, synchronize, take_out_trash"]}
{"id": "C57", "title": "The reported status is the one the server told last", "statement": "After any history of calls, when no transaction is running, Connection.state is the meaning of the status byte in the last ReadyForQuery message that was processed ('idle', 'idle in block', 'failed block'); while a transaction runs it is 'busy', and if the connection is lost 'closed'.", "quantifier": "all histories of calls including close and synchronize, all behaviours of the socket, all bytes of the server", "why_tests_cant": "depends on every interleaving of partial reads, errors, forced synchronizations and abandoned transactions", "anchors": ["postgresql/driver/pq3.py: Connection.state", "postgresql/protocol/client3.py: Connection.complete, step (state = last_ready)", "postgresql/protocol/xact3.py: Instruction.standard_put (last_ready)"]}
{"id": "C58", "title": "What calling a statement returns", "statement": "Calling a prepared statement with columns returns all rows of the server's reply in order, each column decoded and NULL as None; calling one without columns returns the command name and the count of the completion tag, or for COPY TO STDOUT the lines; first() returns the first row (or its only value) or None, and the count or command name for a statement without columns. Nothing is sent if the parameters do not fit or cannot be packed. Whenever a value is returned, the server's reply completed the transaction without an error. All of this however the reply is divided into batches and wherever asynchronous messages occur in it.", "quantifier": "every parameter list, every list of pack and unpack functions, every reply of the server and every division of it into batches", "why_tests_cant": "The results must be the same for every cut of the reply into batches and every position of notices and notifications, for every row count and every tag.", "anchors": ["postgresql/driver/pq3.py: Statement.__call__, first, column; FetchAll; Output.command, count, _process_tuple_chunk_Column", "postgresql/protocol/element3.py: Complete.extract_count, extract_command"]}
{"id": "C59", "title": "The SQL text the driver composes says exactly what was asked for", "statement": "Whatever the names, payloads, sources and identifiers contain (quotes, semicolons, newlines, comments), the text executed by db.notify(), db.do(), a cursor's declaration, read() and seek(), a transaction's start, savepoint, release and rollback is read by PostgreSQL's lexer, in exactly one way, as the statements asked for and nothing else: the notifications with these channels and payloads in order; DO with this source and language; DECLARE of a cursor with this name for this statement; FETCH and MOVE for this cursor that return the rows and lead to the position documented for read() and seek(); savepoint commands naming the same savepoint. Transaction isolation and mode options cannot add a statement. listen(name) and unlisten(name) are about the channel with that name.", "quantifier": "all texts as channel names, payloads, sources, cursor names and transaction options; all offsets, quantities, directions and cursor positions", "why_tests_cant": "The space of hostile names is infinite; a test only shows that the particular strings it tries are quoted properly.", "anchors": ["postgresql/driver/pq3.py: Connection.notify, listen, unlisten, do", "postgresql/driver/pq3.py: declare_statement_string, Output._pq_xp_fetch, _pq_xp_move, _pq_xp_declare, Cursor.seek, Cursor.read", "postgresql/driver/pq3.py: Transaction._start_xact_string, _savepoint_xact_string, _release_string, _rollback_to_string", "postgresql/string.py: quote_literal, quote_ident"]}
{"id": "C60", "title": "Preparing a statement, and running a query in one step", "statement": "Preparing has the server parse exactly the given text under the statement's name (replacing any statement of that name and touching no other) and describe it; a prepared statement is returned only if the server answered without an error, and then has exactly the parameter types and columns the server described, in order, with the routines of their types, columns being requested in the format their routine reads; if the server reports an error, preparing raises and nothing is run. A query run in one step returns the rows, decoded with these routines, that the server sends for this text and these parameters. A row's value looked up by column name is that of the last column of the name.", "quantifier": "every SQL text, name, type system, description and reply, divided into batches in any way, with asynchronous messages anywhere; every state of the server", "why_tests_cant": "unbounded replies, batchings, descriptions and texts", "anchors": ["postgresql/driver/pq3.py: Statement._init, Statement._fini, Database.prepare, Database.statement_from_id, SingleExecution", "postgresql/protocol/element3.py: AttributeTypes, TupleDescriptor"]}
{"id": "C61", "title": "Stored procedures: the statement, the call and its result", "statement": "`db.proc(identifier)` raises LookupError and prepares nothing if there is no such function. Otherwise it prepares exactly one statement, which PostgreSQL reads as `SELECT * FROM function($1::type, ...) AS func`, with the function found under the name the server gave (any characters in it), and every parameter cast to exactly the type that the function has at this place, no matter what types were used on the connection before. Calling the object with positional arguments sends the packed arguments, and returns: the first row for a row type; the first column of the first row otherwise (None for NULL); an iterator of all rows, or of their first columns, in order, for a set, inside of a transaction block or not. (Refuted in part: bpchar is cut to one character; types set up with identify() are named None; keyword arguments never work.)", "quantifier": "all functions, types, catalogs, histories of types used and identified, arguments, replies in any batches", "why_tests_cant": "names and types are arbitrary, and the text depends on the history of the connection's type cache", "anchors": ["postgresql/driver/pq3.py:StoredProcedure", "postgresql/driver/pq3.py:TypeIO.sql_type_from_oid", "postgresql/types/__init__.py:oid_to_sql_name"]}
{"id": "C62", "title": "What a cluster object reports about its server is what it saw", "statement": "`Cluster.running()` returns True only if it saw the server running (its own process alive, or the process named by postmaster.pid accepting signals) and False only if it saw the opposite; if nothing changes meanwhile it tells what is so; it raises only when the pid file holds no number or the process may not be signalled. `ready_for_connections()` is True only if after being seen running the server took a connection, at the address the configuration gives at that time, or refused the user; `wait_until_started()` returns only when that was seen, `wait_until_stopped()` only when the server was seen not running; both come to an end, by returning or raising, if the clock advances, and they raise only for an enumerated set of reasons. `connect()` attempts a connection only to a server seen running. `address()` gives the port and preferred host of the configuration. None of these sends a signal, starts a process or removes anything; what the object knows about its own process is true after every history.", "quantifier": "every behaviour of the operating system, server, files and clock between any two calls; every history of operations, timeout and configuration text", "why_tests_cant": "races: the answers of the system may change between any two calls, and waits are unbounded", "anchors": ["postgresql/cluster.py:Cluster.running", "postgresql/cluster.py:Cluster.ready_for_connections", "postgresql/cluster.py:Cluster.wait_until_started", "postgresql/cluster.py:Cluster.wait_until_stopped", "postgresql/cluster.py:Cluster.connect", "postgresql/cluster.py:Cluster.address", "postgresql/cluster.py:Cluster.pid"]}
{"id": "C63", "title": "What a cluster object does to its server", "statement": "reload, stop, shutdown and kill send exactly their signal, once, to the process postmaster.pid names or else to the object's own, none if there is neither, and do not fail when that process is gone. `start()` starts at most one process, `postgres -D data_directory`, and only after the server was seen not running. `restart()` sends only the signal of stop, starts at most one process after seeing the server not running, and returns only after it then saw it take connections. `drop()` removes files only after the server was seen not running or, killed, outlasted the wait (with a warning). `with cluster:` runs its body only once the server was seen taking connections, and then always stops it and waits for its end. Signals go only to the server. (The last is refuted: a stale pid file or an ended process's number may be another process's.)", "quantifier": "every behaviour of the operating system, server and clock; every history of operations", "why_tests_cant": "races and unbounded histories", "anchors": ["postgresql/cluster.py:Cluster.start", "postgresql/cluster.py:Cluster.stop", "postgresql/cluster.py:Cluster.restart", "postgresql/cluster.py:Cluster.drop", "postgresql/cluster.py:Cluster.__enter__", "postgresql/cluster.py:Cluster.__exit__"]}
{"id": "C64", "title": "Dropping a cluster removes its data directory and nothing else", "statement": "`Cluster.drop()` removes the data directory and everything in it, without an error, and touches nothing outside of it, even when it fails; links in it are not followed. (Refuted in part: if a link to a directory is anywhere in it, as for every tablespace, drop raises and leaves the directory.)", "quantifier": "all file systems and directory trees of any depth and width", "why_tests_cant": "the trees are unbounded", "anchors": ["postgresql/cluster.py:Cluster.drop"]}
{"id": "C65", "title": "Cluster.init runs initdb as told, keeps the password out of sight and removes its file", "statement": "Cluster.init(password, timeout, **kw) either starts no program, raising, or starts exactly one: initdb (or pg_ctl initdb) with -D and the data directory, exactly the options asked for by the keywords, each once, with the values given, and --pwfile only if a password was given; a keyword it does not know is TypeError and nothing is done. It returns normally only if the program ended with 0; a nonzero end is an InitDBError with the command and the exit code, and an expired timeout kills the program. The password is in its file, closed, before the program starts, is nowhere in the command or the outcome, and the file is gone whatever happens.", "quantifier": "all configurations, passwords, timeouts, dictionaries of keywords, and all outcomes of the program, of the wait and of the temporary file's encoding", "why_tests_cant": "a test runs initdb with one or two keywords on one machine; it cannot try every subset of keywords, each with an expired timeout or an unencodable password", "anchors": ["postgresql/cluster.py: Cluster.init 202-303, initdb_option_map", "postgresql/encodings/aliases.py: get_python_name"]}
{"id": "C66", "title": "The server's encoding is spoken with the Python codec of the same name", "statement": "When the server reports its client_encoding, in any case and with surrounding blanks, the connection uses the Python codec of the same character set: for every encoding name of PostgreSQL that Python has a codec for, for every Windows code page however spelled, and for other names the name itself. The last report that names a codec wins, and the name shown is always that of the last report.", "quantifier": "all encodings of PostgreSQL's table, all digits of Windows code pages, all other names, all sequences of reports", "why_tests_cant": "a test has one server encoding and one client encoding; errors of the table show only as garbled text in an encoding the tests never use", "anchors": ["postgresql/encodings/aliases.py: postgres_to_python, get_python_name", "postgresql/driver/pq3.py: TypeIO.set_encoding 167-, Connection._receive_async 2648"]}
{"id": "C67", "title": "temporal contexts: own schema, own connection, everything restored", "statement": "Entering a context of postgresql.temporal gives the builtins db, prepare, xact, sqlexec, do, settings, proc, connector and new of a new connection that is open and looks first in a schema that was newly created for the context. Contexts nest: after an inner one, however it ends, the builtins are those of the outer one. After the outermost the builtins are as before. A context whose operations succeed leaves the schemas and open connections as it found them, also when its code raises, and the outcome is that of its code. Other builtins are never touched.", "quantifier": "all programs of nested contexts, new connections, assignments to builtins, caught and uncaught exceptions; all sequences of outcomes of the operations", "why_tests_cant": "a test has one or two nestings with success; contexts that fail at each operation, at each depth, are not reached", "anchors": ["postgresql/temporal.py: Temporal.push, pop, _init_c, __enter__, __exit__"]}
{"id": "C68", "title": "An installation is what its pg_config says", "statement": "pg_config_dictionary has, under every name pg_config prints (in lower case), the value of its last line, and nothing else; a pg_config that does nothing without options is asked for every option of its help and the answers belong to the options in order. An Installation has the type and the normalized version printed, the directories printed, the programs that are in the directory of programs and None for those that are not, and the options PostgreSQL was configured with, names with _ for -, the last value winning; ssl is whether --with-openssl or --with-ssl was among them. The default pg_config is PGINSTALLATION's, otherwise that of the first directory of PATH that has one.", "quantifier": "all outputs of pg_config (any lines, values, versions), all lists of configure arguments, all environments and files", "why_tests_cant": "a test has the pg_config of the machine; a line, an option or a suffix of a version that it does not have is never tried", "anchors": ["postgresql/installation.py: get_command_output, pg_config_dictionary, parse_configure_options, default_pg_config, Installation.__init__, ssl, default", "postgresql/python/os.py: find_file, find_executable"]}
{"id": "C69", "title": "Rows as named tuples have each value under the attribute of its column", "statement": "The class made for the columns of a statement has one field per column, in order: the name with spaces as underscores if that may be an attribute and no earlier column has it, `_i` otherwise; fields are distinct, and the class for the same names is made once and shared ever after, whatever else is made in between. namedtuples(stmt)(...) delivers exactly the rows of stmt.chunks(...), in order, with getattr(row, attribute of column i) being the value of column i, and ends as the chunks end (normally or by the same exception). With NamedTupleFactory as the factory of rows the same holds when no two columns have the same name (and for composites); with two columns of the same name every row raises TypeError.", "quantifier": "all lists of column names, all histories of classes made before and after, all chunkings of all rows, all values", "why_tests_cant": "The cache is shared by all statements of the process and the renaming depends on all earlier columns, so it must hold for every history and every list of names.", "anchors": ["postgresql/types/namedtuple.py:_factory", "postgresql/types/namedtuple.py:NamedTupleFactory", "postgresql/types/namedtuple.py:namedtuples"]}
{"id": "C70", "title": "Geometric values: arithmetic, distance, segments, boxes and circles", "statement": "Points add and subtract as vectors and multiply as complex numbers; distance is a metric; the slope of a segment is that of its direction (ZeroDivisionError exactly for vertical ones) and its center is the midpoint; a Box has its high point above and right of its low point, is the smallest box containing both given points, and does not depend on which opposite corners are given in which order; circles have all radii but negative ones (ValueError). Points divide as complex numbers, parallel and perpendicular say whether segments are so.", "quantifier": "all points, segments, boxes, radii over any ordered field (all square roots)", "why_tests_cant": "Laws over all coordinates: the wrong sign in the quotient and the wrong test of right angles are invisible on axis-aligned and diagonal samples.", "anchors": ["postgresql/types/geometry.py:Point", "postgresql/types/geometry.py:Lseg", "postgresql/types/geometry.py:Box", "postgresql/types/geometry.py:Circle"]}
{"id": "C71", "title": "crypt() computes the traditional Unix crypt(3)", "statement": "For every password and every salt beginning with two of the 64 crypt digits, resolved.crypt.crypt(password, salt) returns the salt's two digits followed by the eleven digits of the zero block encrypted 25 times with DES (FIPS 46) whose E selection is perturbed by the salt, keyed with the seven low bits of the first eight bytes; a missing salt is 'AA', a single digit is completed with 'A'. Whatever the bytes of the password and salt, the result has 13 bytes, begins with the salt, and crypt(password, crypt(password, salt)) == crypt(password, salt); only the seven low bits of the first eight password bytes and the first two salt bytes matter.", "quantifier": "all passwords and salts", "why_tests_cant": "The server compares the result with its own crypt; 2^56 keys and 4096 salts go through precomputed tables (1024 entries of S-box/permutation tables and 512 of the key schedule), and a wrong entry shows only for some keys.", "anchors": ["postgresql/resolved/crypt.py: crypt, _set_key, _body, _SPtrans, _skb, _con_salt", "postgresql/protocol/xact3.py: Negotiation (crypt authentication)"]}
{"id": "C72", "title": "COPY TO STDOUT through StatementProducer", "statement": "Iterating over a StatementProducer publishes exactly the CopyData messages of the rows the server sends, in order, whatever pieces the socket returns the answer in and wherever notices and parameter changes are mixed in; it then stops, with the totals of what was published, everything read and the connection free. At every moment what was published is a beginning of that, and total_messages/total_bytes describe it. An error of the server is raised and never taken for the end. If the iteration is given up at any point, realign() completes the message the receivers have a part of and leaving the block reads the connection clean up to ReadyForQuery.", "quantifier": "all answers that the protocol allows (rows, notices, errors anywhere), all ways to cut them into pieces, all numbers of iterations before giving up", "why_tests_cant": "the places where a stream can be cut, and the hand-overs between the connection's buffer and the producer's own reads, are unbounded in number", "anchors": ["postgresql/copyman.py: StatementProducer.confiscate, recover, __enter__, __exit__, ProtocolProducer.recv_view, process_copy_data, track_state, realign", "postgresql/driver/pq3.py: FetchAll._init, __next__, SingleXactCopy", "postgresql/protocol/client3.py: read_into, standard_read_messages, step", "postgresql/protocol/xact3.py: put_copydata"]}
{"id": "C73", "title": "A COPY receiver commits only what it was given, and only when it was left in success", "statement": "When a statement receiver (COPY FROM STDIN in a copy manager) was entered, each piece of data it is given and transmits reaches the server completely, in order and right after the statement's own messages, whatever the connection did before and however the socket takes the bytes. Leaving it without an exception returns only after CopyDone and Sync followed exactly these data. Leaving it with an exception, or with an unfinished message, sends the rest of the message, CopyFail and Sync and nothing else. After an interrupt between messages nothing is sent by the receiver, and whatever is done with the connection afterwards the data are followed by CopyFail (or a Sync), never by CopyDone.", "quantifier": "every history of the connection, every behaviour of the socket, every server, every sequence of pieces of data, every way of leaving, every later sequence of operations", "why_tests_cant": "the outcome depends on the history of the connection and on where partial sends, server messages and exceptions fall; all of these are unbounded", "anchors": ["postgresql/copyman.py: ProtocolReceiver.accept, ProtocolReceiver.transmit, StatementReceiver.__enter__, StatementReceiver.__exit__", "postgresql/driver/pq3.py: SingleXactCopy / PreparedStatement._load_copy_chunks, Connection._pq_complete", "postgresql/protocol/client3.py: Connection.complete", "postgresql/protocol/xact3.py: Instruction.put_copydata / sent_from_stdin"]}
{"id": "C74", "title": "A COPY transfer delivers all rows to every destination, or commits only where everything arrived", "statement": "copyman.transfer / CopyManager.run from a statement producer (COPY ... TO STDOUT) to any number of statement receivers (COPY ... FROM STDIN): when it returns, the source reported no error and every destination was sent exactly the source's rows, in order and unchanged, followed by CopyDone, and confirmed it; the totals are those of the rows. However it ends, each destination was sent either a beginning of the rows and then CopyFail, or all the rows and then CopyDone; an error of the source always raises and no destination is told that the data is complete. After CopyFail is raised the source's connection is free, and every receiver not dropped has been left.", "quantifier": "for every set of rows, every way the source's answer is cut into pieces, notices and errors in it, every number of destinations, every history of their connections, and every behaviour of the sockets", "why_tests_cant": "the boundaries of the received pieces, the faults of the sockets and the histories of the connections are unbounded, and combine over any number of destinations", "anchors": ["postgresql/copyman.py: CopyManager.run, __enter__, __exit__, _service_producer, _service_receivers", "postgresql/copyman.py: StatementProducer, StatementReceiver"]}
{"id": "C75", "title": "Iterating over a CopyManager with faults: what is put back in time has everything, the progress adds up", "statement": "Iterating over a CopyManager (source: a statement producer, destinations: statement receivers), catching ReceiverFaults and putting receivers back with reconcile() before the iteration goes on: the numbers reported by the iteration, and those kept after a fault, add up to the producer's totals, and at the end to the rows of the source; when the iteration has ended and the block is left without an exception, every receiver in the set, whatever faults it had, was sent all rows in order and CopyDone, and has confirmed it; when the block is left with an exception, at any point, no destination is sent CopyDone unless it was sent all rows and the source had no error; the source's connection is free.", "quantifier": "for every list of operations of the user (next and reconcile in any order, subject to reconcile being timely), every number of destinations and behaviour of their sockets, all rows and every division of the source's answer", "why_tests_cant": "faults may occur at any byte of any destination and be reconciled any number of times, interleaved with any division of the source's answer", "anchors": ["postgresql/copyman.py: CopyManager.__next__, reconcile, __exit__, _service_producer, _service_receivers", "postgresql/copyman.py: Receiver.accept, WireReceiver.transmit"]}
{"id": "C76", "title": "Asynchronous messages end up where the user finds them", "statement": "Notifications, notices and parameter changes may arrive between any two messages of any answer. Every one that a transaction takes in is handed to the connection, in the order of arrival: every notification is in the list read by the user, none lost, duplicated or reordered, over any number of transactions and whatever callbacks and message hooks raise; after it, db.settings has the value the server reported last for each parameter, every subscribed callback was called with every report for its parameter in order, and the codec in use is that of the last client_encoding; every notice is emitted, as what it says in the encoding then in use; an exception of a callback or hook is reported and does not disturb the rest. While connecting, parameters are taken over the same way.", "quantifier": "for every transaction, every division of the answer into batches, every interleaving of asynchronous messages with the answer, all callbacks and hooks", "why_tests_cant": "the server may send asynchronous messages at any point of any answer, in any number", "anchors": ["postgresql/driver/pq3.py: Connection._receive_async, Connection._notifies, Connection.connect (2519-2522)", "postgresql/driver/pq3.py: Settings._notify, Settings.subscribe", "postgresql/protocol/xact3.py: Instruction.standard_put", "postgresql/protocol/client3.py: Connection.take_out_trash"]}
{"id": "C77", "title": "A value that cannot be converted is named by the exception", "statement": "Executing a statement with parameters of which one cannot be packed raises, before anything is sent, a ParameterError with the number of the first such parameter, its SQL type and its repr (at most 80 characters); a row of which a column cannot be unpacked raises a ColumnError with the column's number, name, type and data. Through composites inside arrays inside composites, to any depth, following __cause__ leads by the positions in the details to the first thing that cannot be converted, and ends with the exception of its own routine. If nothing fails, every parameter was packed by the routine of its type, in order, None as NULL. The wire data shown is a bytes literal that reads back as exactly these bytes.", "quantifier": "for every type built of arrays and composites to any depth, every value and every behaviour of the routines", "why_tests_cant": "types nest to any depth, and any routine may fail at any value", "anchors": ["postgresql/driver/pq3.py: Statement._pq_parameters, _raise_parameter_tuple_error, _raise_column_tuple_error, first", "postgresql/driver/pq3.py: Output._raise_column_tuple_error, _process_tuple_chunk", "postgresql/driver/pq3.py: TypeIO.record_io_factory, anon_record_io_factory, array_io_factory, raise_client_error", "postgresql/python/functools.py: process_tuple, process_chunk"]}
{"id": "C78", "title": "Values of arrays and composites, in one another to any depth, come back", "statement": "If the routines of the types inside unpack whatever they pack, then any value of a type built of arrays and composites in one another (to any depth) that can be sent as a parameter is sent in the server's format, and reading those bytes succeeds and gives a value that is alike: the same dimensions and lower bounds, None at the same places, alike elements and attributes. The parameters of a statement whose columns have the parameters' types come back as its row. Python's lists, tuples, rows and Array objects meet the conditions this puts on values.", "quantifier": "all types built of arrays and composites to any depth, all values, all routines for the other types that unpack what they pack", "why_tests_cant": "types nest without bound and values have any size and shape; a test checks some of them", "anchors": ["postgresql/driver/pq3.py: TypeIO.array_parts, array_from_parts, array_io_factory, record_io_factory, Statement._pq_parameters, Output._process_tuple", "postgresql/types/io/lib.py: array_pack, array_unpack, record_pack, record_unpack", "postgresql/types/__init__.py: Array"]}
{"id": "C79", "title": "The place of an error in a statement", "statement": "When the server reports an error of a statement with a position, the description of the statement shows exactly the line of the statement that has that character (tabs as blanks), under it a caret in the column of the character, and the right numbers of line and character, whatever the kinds of line breaks in the statement are (\\n, \\r, \\r\\n, form feeds, Unicode separators). Every character that is not a line break has such a line. Without an error, without a position or with a position that is not a decimal number nothing is shown. A position after the last character is shown at the last character.", "quantifier": "every statement text, every position in it, every mixture of line breaks, every P field", "why_tests_cant": "the place is computed by normalising line breaks of two prefixes and searching backwards and forwards; texts, positions and mixtures of breaks are unbounded", "anchors": ["postgresql/driver/pq3.py:Statement._e_metas"]}
{"id": "C80", "title": "What a statement says about its columns", "statement": "column_types of a prepared statement is the list, in the order of the columns, of the classes that go with the columns' types (str for types without routines, Array, tuple for composites, the class of the base type for domains), whatever other types the connection has used before or since; every value that comes in such a column is of that class. sql_column_types names every column's type: each text, read as SQL, is that type. A statement without columns says None.", "quantifier": "every catalog of types, every history of types used on the connection, every list of columns", "why_tests_cant": "the answer comes out of a cache filled by any history of statements over any catalog (domains, arrays, composites of any depth)", "anchors": ["postgresql/driver/pq3.py:Statement.column_types", "postgresql/driver/pq3.py:Statement.sql_column_types", "postgresql/driver/pq3.py:TypeIO.type_from_oid", "postgresql/driver/pq3.py:TypeIO.sql_type_from_oid"]}
{"id": "C81", "title": "Texts of elements and errors", "statement": "format_element shows an object as its label, its details and its factors, the prime factor below; each detail and factor is there once, at its place, indented below its name when long or of several lines; an object that is composed of itself gets no text but RecursiveFactor, any other object gets one with a stack no deeper than the number of objects. The text of an error shows its message, its code, where it comes from, every other detail of the server in the order of their names, and the object that made it; formatting an error does not fail whatever formatting the object does.", "quantifier": "every graph of objects, every label, detail and text (any characters and line breaks), every depth of the stack, every error's details", "why_tests_cant": "Graphs of objects, texts and line breaks are unbounded; termination on every cyclic graph is not a matter of examples.", "anchors": ["postgresql/python/element.py:ElementSet", "postgresql/python/element.py:format_element", "postgresql/python/string.py:indent", "postgresql/sys.py:default_errformat", "postgresql/message.py:Message._e_metas", "postgresql/message.py:Message.location_string"]}
{"id": "C82", "title": "executemany equals repeated execute; rowcount, description and constructors", "statement": "Cursor.executemany(statement, parameters) that returns leaves the data exactly as calling execute(statement, p) for each p in order, all parameters having been consumed; if every single execute would succeed, it returns; in autocommit mode a failing call leaves the effects of a prefix of the parameters that is a multiple of 256. A parameter set that cannot be matched to the markers makes it raise. After a statement without result rows rowcount is the count in the server's tag or -1; after a query description has one entry per column with its name, in order, and a type code equal to the type object of the column's kind. DateFromTicks, TimeFromTicks and TimestampFromTicks give the local time of the ticks.", "quantifier": "every statement text, list of parameter sets, position of a failure, server behaviour, completion tag, list of columns and number of ticks", "why_tests_cant": "unbounded lists of parameters cut into chunks, arbitrary failures and all type numbers", "anchors": ["postgresql/driver/dbapi20.py: Cursor.executemany, Cursor.execute, dbapi_type, DateFromTicks, TimeFromTicks, TimestampFromTicks", "postgresql/driver/pq3.py: Statement.load_rows"]}
{"id": "C83", "title": "Secured connections verify the server; sockets are not leaked", "statement": "Whenever a connection is secured with TLS, a file of root certificates was given to the connector and the server's certificate is issued by an authority from that file, and a server that asks for a client certificate got the configured one; this holds after any number of attempts, failures and changes of the files. With readable files and such a server the first attempt succeeds. A socket handed out by the socket factory is connected and without timeout; if making it raises an Exception the socket is closed.", "quantifier": "every combination of security keywords, every history of attempts, file contents and server certificates, every outcome of each socket operation", "why_tests_cant": "adversarial servers, file contents changing between attempts and failures at every operation", "anchors": ["postgresql/python/socket.py: SocketFactory._security_context, secure, __call__, find_available_port", "postgresql/driver/pq3.py: Connector._security, Connection._establish"]}
{"id": "C84", "title": "UUIDs and XML keep their value", "statement": "A UUID, or any of its usual texts (upper or lower case digits, with or without hyphens wherever they are, braces or one of the prefixes urn:uuid:, uuid:, urn:), is sent as its sixteen bytes and read back as the same UUID; the standard text of any sixteen bytes is sent as those bytes. XML elements given as a tuple come back as a tuple with the same elements, each with the text after it, a single element with nothing but white space after it as that element. The numbers of a path come back from the library's packing function.", "quantifier": "all UUIDs and texts of them, all sequences of elements with texts, all libraries for XML that read what they write, all lists of numbers", "why_tests_cant": "infinitely many values and texts; whether the two ways of reading XML (document, content) can be confused depends on all contents", "anchors": ["postgresql/types/io/stdlib_uuid.py: uuid_pack, uuid_unpack", "postgresql/types/io/stdlib_xml_etree.py: xml_pack, xml_unpack", "postgresql/types/io/lib.py: path_pack, path_unpack, oidvector_pack, int2vector_pack"]}
{"id": "C85", "title": "What is open on the server follows the client's objects", "statement": "After any history of making, closing, forgetting and collecting statements, cursors and result streams, and of other commands, transactions' ends and SQL: everything the server has under a name generated by the client belongs to an object that is still referenced and not closed, or is closed together with the next thing that is sent; nothing that is in use is ever closed, although names are made of memory addresses that are used again; when something new is made the server has nothing of that name; what the user made under a name of his own is never closed unless he makes an object for it and closes that; closing twice or collecting a closed object closes nothing more.", "quantifier": "all histories, all choices of addresses by the interpreter, all moments at which objects are collected (including while the closings are collected and sent)", "why_tests_cant": "address reuse and the moments of garbage collection cannot be forced by tests", "anchors": ["postgresql/driver/pq3.py: ID, Output.__init__, Output.close, Statement.__init__, Statement.close, Statement._init, Connection.prepare, cursor_from_id, statement_from_id", "postgresql/protocol/client3.py: register_cursor, trash_cursor, register_statement, trash_statement, take_out_trash, push"]}
{"id": "C86", "title": "rows(), chunks() and column() give the same rows whichever way they are fetched", "statement": "A statement's `rows()`, `chunks()` and `column()` hand out every row of its result exactly once, in the server's order, in chunks of at most 4096 rows, whether the statement is used inside a transaction block (portal with a limit), outside of one (a held cursor) or was obtained by its identifier; iteration ends normally only after everything was handed out and the query did not fail; outside of a block a query that fails for any row gives nothing; COPY gives its lines; a wrong number of parameters or one that cannot be packed is an exception before anything is sent.", "quantifier": "every statement, parameters, result of any size, decoding functions, and every sequence of other uses of the connection between two chunks that leaves the cursor alone", "why_tests_cant": "Which plan is used depends on the transaction state and on how the statement was made; boundaries are at multiples of 4096 rows; the interleavings with other uses of the connection are unbounded.", "anchors": ["postgresql/driver/pq3.py: Statement.chunks, rows, column", "postgresql/driver/pq3.py: MultiXactStream, MultiXactInsideBlock, MultiXactOutsideBlock, SingleXactFetch, SingleXactCopy", "postgresql/driver/pq3.py: Output._pq_xp_declare, _pq_xp_fetch, _pq_xp_execute, _process_*"]}
{"id": "C87", "title": "Times kept as floats come back to the microsecond, and the format is the server's", "statement": "With a server that keeps dates and times as floats, a datetime.time, aware time or timedelta sent and read back is the one sent or the one a microsecond before it, never later, and exact if it has whole seconds; the same holds for timestamps within 272 years of 2000, and every other timestamp comes back within 16 microseconds or, that near the ends of Python's range, is refused; the infinities come back. The format is the integer one iff integer_datetimes is on (or, if the server does not say, from 9.0), and intervals go without days only for 8.0 and before.", "quantifier": "all times, timestamps, offsets of whole minutes, timedeltas, settings and server versions", "why_tests_cant": "the error depends on the rounding of each of 86.4 billion times and of every timestamp; only the rounding rule of doubles covers them", "anchors": ["postgresql/types/io/lib.py: mktimetuple, mktime, interval_pack, interval_unpack, interval_noday_pack, interval_noday_unpack, timetz_pack, timetz_unpack", "postgresql/types/io/stdlib_datetime.py: id_to_io, proc_when_not_in, time_type, select_format, select_day_format"]}
{"id": "C88", "title": "pg_dotconf sets and unsets what its arguments say, and nothing else", "statement": "The command writes the configuration file (or, with --stdout or /dev/stdin, standard output, the file untouched) so that every setting named in its arguments has the value of the last argument about it, those named without a value are not set, and all others have the values they had; it exits with 1 on an argument without a name and with 0 and no effect without arguments; whenever it fails the file is as it was.", "quantifier": "all configuration files and lists of arguments with settings' names that differ in more than case and values on one line", "why_tests_cant": "files and argument lists are unbounded; the last of several arguments must win, and nothing else may change in any file", "anchors": ["postgresql/bin/pg_dotconf.py: command", "postgresql/configfile.py: alter_config, parse_line"]}
{"id": "C89", "title": "Arrays compare as the nested lists they hold, and can be copied", "statement": "Comparing an Array with an Array or with a list, by any of the six operators and in either order, gives the result or exception that comparing the nested lists gives; arrays that hold the same nested list are equal whatever their bounds; list(a) and len(a) are those of the nested list; copy and pickle give an array with the same elements, bounds and dimensions.", "quantifier": "all arrays made by the constructors, of any number of dimensions, all elements with any symmetric comparison, all operators", "why_tests_cant": "arrays are nested to any depth and any shape; comparisons go through reflected methods and recursive lists of sub-arrays", "anchors": ["postgresql/types/__init__.py: Array.__eq__, Array.__lt__, Array.__iter__, Array.__getnewargs__"]}
{"id": "C90", "title": "Categories bind libraries under the names asked for, and replace nothing", "statement": "Calling a Category on a database makes every library an attribute under each alias and, if it was given by position, under its name, leaving all other attributes as they were; it succeeds exactly if no attribute asked for exists and no name is asked for twice; whether or not it succeeds, no existing attribute is replaced. The result does not depend on the order in which the set of libraries is gone through.", "quantifier": "all sets of libraries, aliases, databases and orders of the set", "why_tests_cant": "the set is gone through in an order that depends on hashes; names and aliases are unbounded", "anchors": ["postgresql/lib/__init__.py: Category.__init__, Category.__call__"]}
{"id": "C91", "title": "Running Python programs: order, namespace, status, and what is put back", "statement": "python.command runs what the command line says: the -C contexts (module:name, file://path, or program text) one after another in the order given, each in the namespace and state the one before left, then the main program: the text of -c, the module of -m, the script named by the first argument, standard input when it is no terminal, or else the console; -c and -m end the options, and all further arguments are the program's, after its own name in sys.argv. The status is 0, the code of the main program's SystemExit, or 1 for any other exception, which is printed. A context that raises anything, or cannot be loaded, ends the run with 1 and neither later contexts nor the main program run; a main program that cannot be found is an exception before anything runs. A post mortem function is called exactly when the program raises and never changes the status. Afterwards, whatever the programs did and however they ended, the interpreter is as it was: sys.argv, __main__, the environment.", "quantifier": "all command lines of these forms, numbers and kinds of contexts, programs (any function on the interpreter's state that may raise), exceptions, post mortem functions and prior states", "why_tests_cant": "programs are arbitrary state changes; what is put back must be so for every way a run can end, and the order of side effects holds for all numbers of contexts", "anchors": ["postgresql/python/command.py: Execution.__init__", "postgresql/python/command.py: Execution._call", "postgresql/python/command.py: Execution.__call__", "postgresql/python/command.py: append_context, set_python_main, find_loader", "postgresql/python/command.py: postmortem"]}
{"id": "C92", "title": "Console: backslash commands, temporary files, environment", "statement": "In the extended console a line that begins with a backslash, while no statement is pending, is never given to Python, never raises, whatever the command, the editor or an executed file does, and leaves no pending statement; every other line goes to Python unchanged, once. \\E and \\e make up a temporary file for a name without a slash; from then on, over any session, the same name, in any capitalisation and with any spaces around, means the same file and different names different files; a path with a slash is that file. \\i executes the files it names. \\set with words name=value sets exactly those variables, one after another.", "quantifier": "all sessions, lines, behaviours of Python, of the editor and of executed files (which may depend on everything that happened), splittings of arguments and temporary names", "why_tests_cant": "names must stay attached to their files over every history of commands, and no failure of any executed file may end the console", "anchors": ["postgresql/python/command.py: ExtendedConsole.push", "postgresql/python/command.py: ExtendedConsole.execslash", "postgresql/python/command.py: ExtendedConsole.resolve_path", "postgresql/python/command.py: ExtendedConsole.bs_set, bs_i, bs_E, bs_e, bs_x"]}
{"id": "C93", "title": "pg_python: attempts, built-ins, and the end of the session", "statement": "pg_python makes another attempt exactly as long as the server refuses because of the credentials, asking for the password in every attempt after the first; any other failure leaves the command as its exception. Once connected the contexts and the program run with connector, db, do, prepare, sqlexec, settings, proc and xact bound to the connection's objects and all other built-ins as they were; the status is the program's. The session is closed when the program ends normally or by an ordinary exception; after an exit with a true status or an interrupt the socket is dropped and nothing more is sent. Afterwards the built-ins are as they were, whatever the program did.", "quantifier": "all sequences of attempts and refusals of any length, programs, exits, and prior built-ins and library paths", "why_tests_cant": "the number of refusals is unbounded, and programs may rebind the built-ins and end in any way", "anchors": ["postgresql/bin/pg_python.py: command", "postgresql/driver/pq3.py: Connection.__exit__", "postgresql/python/command.py: Execution.__call__"]}
{"id": "C94", "title": "The message stream in C behaves as the one in Python", "statement": "Every history of calls (write, next_message, next, read, has_message, len, getvalue, truncate) gives the same results and the same exceptions whether the stream is the class of port/_optimized/buffer.c, which is used when the extension could be compiled, or pbuffer.pq_message_stream, however the bytes are cut into writes; as long as less than 2^31 bytes are pending, types are below 128 where char is signed, and read() is not called with a malformed length pending. Outside of that they differ: read() raises SystemError for a malformed length anywhere in the pending bytes, and gives nothing of what comes before it.", "quantifier": "all histories of calls, all bytes and all cuts of the bytes into writes; both signednesses of char", "why_tests_cant": "The C stream is a linked list of chunks, and its arithmetic is modulo 2^32; agreement must hold for every way a message can straddle chunks and for every call made between them", "anchors": ["postgresql/port/_optimized/buffer.c: p_at_least, p_seek, p_memcpy, p_length, p_build_tuple, p_write, p_next, p_read, p_has_message, p_next_message, p_getvalue, p_truncate", "postgresql/protocol/pbuffer.py: pq_message_stream", "postgresql/protocol/buffer.py"]}
{"id": "C95", "title": "Rows and batches in C are those of the Python functions", "statement": "The replacements in port/_optimized/element3.c, which are used when the extension could be compiled, agree with the Python functions and with the protocol: parse_tuple_message gives a row exactly for the bytes that are that row on the wire and raises ValueError for all others; pack_tuple_data writes the attributes as the Python function does; cat_messages gives the same bytes for every batch of messages, rows and COPY lines, and raises for the same batches, and these bytes are the messages one after the other. The exceptions are Void, for which C writes a length without a type, and single messages of 2^31 bytes and more.", "quantifier": "all bytes, all rows, all batches mixing messages, rows and COPY lines, of any length", "why_tests_cant": "Agreement of two implementations over all inputs, including sizes at the borders of the 32-bit arithmetic; the C one groups consecutive lines and rows and computes the space for a group in advance", "anchors": ["postgresql/port/_optimized/element3.c: parse_tuple_message, _unpack_tuple_data, pack_tuple_data, _pack_tuple_data, cat_messages", "postgresql/protocol/element3.py: pack_tuple_data, Tuple.parse, cat_messages"]}
{"id": "C96", "title": "Receiving rows with the C function gives the same transactions", "statement": "Where consume_tuple_messages of port/_optimized/element3.c is available, a transaction takes the rows at the beginning of what was read and gets the rest of it in another call. Whatever the server sends and however the reads cut it, the transaction then is exactly the one without the C function that was given the same messages in some smaller batches; so it takes the same messages, ends in the same phase and position, with the same messages collected in the same order, the same status, error and hook calls. The function itself gives exactly the parsed rows before the first other message, and raises ValueError exactly when one of them is malformed.", "quantifier": "all transactions, all replies, all ways of cutting them into reads", "why_tests_cant": "Which messages arrive together depends on timing; the C variant splits reads at places where the Python variant does not, and they must agree for all of them", "anchors": ["postgresql/port/_optimized/element3.c: consume_tuple_messages", "postgresql/protocol/xact3.py: Instruction.put_tupledata", "postgresql/protocol/client3.py: Connection.complete, Connection.step"]}
{"id": "C97", "title": "Integers are packed in C as with struct, on every host", "statement": "short_pack, long_unpack and the other functions for integers of two, four and eight bytes give the same bytes and the same numbers, and reject the same arguments, whether they are the functions of port/_optimized/structlib.c chosen by the byte order of the host or are made with struct.Struct, on hosts of both byte orders and with a long of four or eight bytes; only the exceptions differ: OverflowError and ValueError in C, struct.error in Python.", "quantifier": "all integers, all bytes, both byte orders, both sizes of long", "why_tests_cant": "Tests run on one host, and the borders of the ranges are in different types in C and in Python", "anchors": ["postgresql/port/_optimized/structlib.c", "postgresql/python/structlib.py"]}
{"id": "C98", "title": "Rows are processed in C as in Python", "statement": "process_tuple, process_chunk and compose of port/_optimized/functools.c give the same rows, raise the same exceptions and call the handler with the same cause and position as the Python functions; None stays None, every other item goes through the processor at its place; exceptions that are no Exception (KeyboardInterrupt) pass without the handler. They differ for rows that are lists (TypeError in C) and for iterables that raise (before any row is processed in C).", "quantifier": "all processors, rows, handlers and chunks", "why_tests_cant": "Agreement of two implementations for all processors, including those that fail at any position", "anchors": ["postgresql/port/_optimized/functools.c: _process_tuple, process_chunk, compose", "postgresql/python/functools.py: process_tuple, process_chunk, Composition"]}
{"id": "C99", "title": "The wire state in C follows the stream as the one in Python does", "statement": "However a stream of COPY data messages is cut into chunks, the WireState of port.optimized counts as many messages as the stream holds, and its attributes (remaining_bytes, size_fragment, final_view) say exactly what is left of the stream, as those of copyman.WireState do; whenever its update() returns, that of Python would have returned the same count and left the same attributes, except for an empty view after the end. A message whose length word is less than four is refused with ValueError in C, however the stream is cut; in Python it is not. The largest length word is refused in C when the header comes in one piece and taken when it does not.", "quantifier": "every stream, every way to cut it, every state", "why_tests_cant": "the cuts of a stream are as many as its subsets of positions; a test tries a few", "anchors": ["postgresql/port/_optimized/wirestate.c: ws_update, ws_new, ws_size_fragment, ws_remaining_bytes, ws_final_view", "postgresql/copyman.py: WireState.update"]}
{"id": "C100", "title": "What cursors take as direction, whence and offset", "statement": "The direction of a cursor and that of a read can be given as True, False or the names in any case, whence as a name in any case or its number 0 to 4, and the call then does what the cursor (C49) does for the meaning of the value; anything else is refused with an exception, and a refused call changes neither the direction nor the position and sends nothing, so that any history of calls is the same as the history without the refused ones; the direction set and the one given to read compose, and the cursor stays within its rows whatever is passed. read(0) sends nothing and does not look at the direction.", "quantifier": "every value, every cursor, every history of calls", "why_tests_cant": "any value in any history of calls", "anchors": ["postgresql/driver/pq3.py: direction_str_to_bool, direction_to_bool, Cursor.direction, Cursor._which_way, Cursor.read, Cursor.__next__, Cursor.seek", "postgresql/api.py: Cursor._seek_whence_map", "postgresql/documentation/driver.rst: Cursor Interface Points"]}
{"id": "C101", "title": "From the bytes of the socket to the rows", "statement": "A statement's rows are those of the server's answer, every one once and in the order sent, however the network divides the bytes of the answer and however often a read of the socket fails with an error that says to try again: two connections whose sockets give the same bytes give the same rows. The constructor ends normally on such an answer (one that begins a COPY needs the object that expects it) and does not wait for more than the answer; a turn of the iteration gives a part of the rows that are still due, or raises because a row cannot be decoded and nothing is lost, or ends the iteration when none is due. If the peer closes the connection, or the socket fails for good, before the answer is complete, even in the middle of a message, the iteration gives exactly the rows that came and then raises: a lost connection is never taken for the end of a result. Whatever the socket does and whatever the server sends, if iteration ends without an exception then the transaction is complete and the server sent no error among the messages that were taken for it. The messages taken for it, those that were read but not taken, and an unread rest are together exactly the bytes that were received.", "quantifier": "every answer of the server without an error, every division of its bytes, every schedule of failing reads, every point at which the connection is lost, every length of the answer", "why_tests_cant": "divisions of a byte stream and failures at every point are unbounded", "anchors": ["postgresql/driver/pq3.py: FetchAll._init, FetchAll.__next__, Connection._pq_step", "postgresql/protocol/client3.py: Connection.step, standard_read_messages, read_into", "postgresql/protocol/pbuffer.py: pq_message_stream", "postgresql/protocol/xact3.py: Instruction"]}

# Formal model of python-postgres/fe in Lean 4

## Layout

* `lean/Verif/Model/*.lean` - executable, total models of the Python code, function by function. Every definition cites `file:lines` in `/repo`; simplifications are stated in the comment of the definition or in the head of the file.
* `lean/Verif/Spec/*.lean` - small specifications used to state the properties, independent of the model's helpers (some only name the observable fields of the model's state).
* `lean/Verif/Proofs/*.lean` - helper lemmas.
* `lean/Verif/Props/*.lean` - the property theorems `Cnn_…`, one file per property group, with examples beside them that meet the hypotheses.
* `properties.jsonl` - English properties; `MANIFEST.json` - property to theorem map (made by `mkmanifest.py` from the theorem names and `notes.json`); `seeded/LOG.jsonl` - log of the tests against wrong programs (made by `seeded/mutate.py`).

## Conventions

Bytes are `List UInt8`; Python `str` is `List Char` (code points); exceptions are values of a result type; a mutable object is a
structure threaded through pure functions; loops are structural or well-founded recursion; the outside world (server, socket,
OS, codecs, Unicode database) is an explicit argument: a list of received batches, of socket results, of fault decisions, or a function.
Where Python's behaviour depends on object identity (`is`), objects carry an identity number.

The code has optional C replacements (`port/_optimized`) for some functions; the **pure Python versions are modelled**, and the C versions of
buffer.c and element3.c next to them (C94 and following), with what they do alike and what they do not.

Where the code violates a property, the negation is proved with a concrete witness (a theorem of the same property) and the strongest
true statement is proved, with the suffix `_partial` if it is less than the property says.

## Per property: what is modelled and how it is proved

| id | model | proof |
|----|-------|-------|
| C01-C05 | `PBuffer`: `pq_message_stream` state (`data`, `start`) with compaction | refinement to the list of unread bytes, induction over operations |
| C06-C09 | `Element3`, `Struct`, `Py`: every element class `serialize`/`parse`, `cat_messages` | round-trip lemmas over big-endian packs, NUL-splitting; induction on lists |
| C10-C13 | `Xact3`: `Instruction` state machine incl. hooks, batch processing, COPY states | fold/append lemmas, invariants over reply histories; an independent grammar of replies (`Spec/Reply`) |
| C14 | `Negotiation` states | invariant over server histories (trace of outputs) |
| C15, C17 | `Client3`: `Connection` write/read buffers, trash lists | invariants over schedules of socket results |
| C16 | `Establish`: `_establish` attempt list, `connect`/`negotiate_ssl` | case analysis over modes, induction over attempts |
| C18-C22 | `TypesLib`, `Numeric`, `DateTime`, `Row`/`PgArray` (wire part), `Hstore` | round trips; bounds from the wire struct formats |
| C23, C24 | `Bytea`; `Bitwise` | induction over bytes / characters |
| C25, C26 | `PgArray`, `Row` | structural induction over nests |
| C27-C29 | `PgString` | an independent SQL lexer spec for tokens; induction over characters |
| C30 | `PgPass` | induction over characters / entries |
| C31, C32 | `RiParse`, `Iri` | an independent grammar; case analysis over delimiters, induction |
| C33 | `ConfigFile` | induction over lines and characters |
| C34, C35 | `CopyMan`, `CopyManager` | refinement to message framing; invariants over fault schedules |
| C36, C37 | `DbApi`, `DbApiParams` | refinement to the row list; induction over query parts |
| C38 | `ALock` | invariant over operation lists against a server lock counter |
| C39 | `NotifyMan`, `IterNotifies` | invariant over arrival schedules, and over uses of the generator |
| C40, C48 | `Transaction`, `DbApiConn` over a server with blocks and savepoints | refinement of a denotational meaning, induction over programs |
| C41 | `Settings` over a server with run-time parameters | invariant over histories |
| C42 | `Fetch` over `Xact3`; `MultiXactStream` over a portal | refinement to the row list |
| C43-C47 | `VersionString`, `Itertools`, `Exceptions`, `SymLib`, `ClientParams` | direct inductions, finite case analysis over class statements |
| C49 | `Cursor` over the server's cursor position | invariant over histories |
| C50 | `TypeIo` over a catalog | fixpoint argument over the catalog graph, invariant over histories |
| C51 | `LoadRows` over a server | induction over chunks |
| C53 | `Messages` | induction over fields |
| C54 | `Connector` | dictionary lemmas |
| C52 | `CopyLoad` (`_load_copy_chunks`) over `Lifecycle` | invariants of the connection for each phase (starting, sending, ending, synchronizing, given up), tied to the log of what was sent |
| C58 | `Statement` over `Fetch` and `Xact3` | what a transaction collects is what the messages mean (induction over batches); completeness of C12 for any batches |
| C59 | `SqlText`; lexer of PostgreSQL in `Spec/SqlText` | each composed text is a concatenation of pieces that read as their tokens whatever follows; a semicolon token is a semicolon in the text |
| C60 | `Prepare`; server with named statements in `Spec/Prepare` | the reply without errors is inverted to answers; the last three messages are the description; composed with C58 |
| C61 | `Procedure`; types' names and numbers of PostgreSQL in `Spec/Procedure`, tokens as in C59 | invariant of the type dictionaries over any history; the text is put together of pieces that read as tokens; calls composed with C58, C60, C42 |
| C62, C63 | `Cluster`; what was seen, attempted and when in `Spec/Cluster` | the system is an arbitrary sequence of answers, one per call; calls are recorded; each operation's outcome implies facts about the answers recorded; loops by induction on rounds, with a variant from the clock; histories by induction |
| C64 | `ClusterDrop`; trees, file systems and outside in `Props/ClusterDrop` | induction on the tree: every call is possible when the ones before are made; a call list touches only paths it names |
| C65 | `ClusterInit`; options, flags, files and outcomes in `Props/ClusterInit` | the calls of every run have one of five shapes; each claim by cases on the shape; options by induction over the keywords |
| C66 | `Encodings`; PostgreSQL's table of encodings in `Props/Encodings` | the finite table by kernel computation (it is the whole domain of that claim); code pages and other names for all strings; reports by induction |
| C67 | `Temporal`; names, contexts and order in `Props/Temporal`, `Props/Temporal2` | programs are trees; balance, restored names and cleanliness by induction on the program, for every sequence of outcomes without interrupts (cleanliness: all made) |
| C68 | `Installation`; rows, arguments of configure in `Spec/Installation` | lines and rows by induction; configure through C28's specification of `split_using`; dictionaries by their last entry; versions through C43 |
| C69 | `Model/NamedTuple` with the cache of classes; fields by induction on the columns, the cache by an invariant over all histories of calls | partial (two columns of the same name) |
| C70 | `Model/Geometry` over any ordered field (Mathlib); algebra, order | partial (`/`, `perpendicular`, vertical segments) |
| C71 | `Model/Crypt`, `Spec/Crypt` (FIPS 46); words related to blocks bit by bit, induction over the key schedule, the rounds and the 25 iterations; tables checked by kernel evaluation | proved |
| C72 | `Model/CopyTo` (over `Model/Xact3`, `PBuffer`, `CopyMan`), `Spec/CopyTo` (the answer as a grammar); one message of the answer at a time through the transaction, invariant with two modes (the connection reads / the producer reads), decreasing measure | proved; finding |
| C73 | `Model/CopyReceiver` (over `Model/CopyLoad`, `Lifecycle`, `Client3`); `Spec/CopyReceiver` (the data given, and giving only when the last was transmitted); what is pending to be sent as an invariant of completing (`Out`), and that a connection's behaviour does not depend on what was sent before (`calls_shift`), which carries the invariants of C52 over the data the receiver sent itself |
| C74 | `Model/Transfer` (over `CopyTo` and `CopyReceiver`); `Spec/Transfer` (what a destination may have been sent); invariant of the loop: the producer is `Ok` with what was published (C72) and every receiver in the set was given exactly that (`Flow`); composed with `leave_ok` of C72 and C73 |
| C75 | `Model/Manager` (over `Transfer`); `Spec/Manager` (`Timely`: `reconcile` only of receivers in the set or dropped by the latest `next`; `adds`: the sum of the progress); the invariant of C74 kept over every operation, with dropped receivers owing the rest of the current data; the statistics by telescoping the totals |
| C76 | `Model/Async` (over `Xact3`, `Encodings`, `Messages`); `Spec/Async` (the asynchronous messages among the first n received, parsed; the last value reported); induction on the batches: the hook calls are the first occurrences per batch; then on the hook calls |
| C77 | `Model/Convert`; `Spec/Convert` (`Fault`: the path to the first thing that cannot be converted and its exception; `positions`, `root` of an exception along `__cause__`); induction on the type, both directions |
| C78 | Values of arrays and composites come back | `Model/Convert` (C77) with `Spec/RoundTrip`: the relation `Sent` (server format, value read), proved of packing and unpacking by induction over it, and complete by induction over the type; `Model/PyWorld` gives Python's lists, tuples, rows, `Array`s (C25) as an instance. |
| C79 | Place of an error in a statement (`Statement._e_metas`): `splitlines`, `rfind`, `find`, slices over character lists; spec: text as full lines + line + rest; proved by induction over the full lines. |
| C80 | Columns' classes and SQL names (`column_types`, `sql_column_types`) over the model of type resolution: the cache never forgets and only has found types (induction over histories); table of classes beside the routines and of what they return. |
| C81 | Texts of elements and errors over a heap of objects: `format_element` with its coverage and the room on the stack; specification is an inductive relation between objects and what a text shows (lines without blank ends); termination by pigeonhole on the coverage; sorting proved a sorted permutation. |
| C82 | `executemany` over the models of `_convert_query` and `load_rows`; attributes and constructors as functions | fold of `execute` related to the chunks by C51; tables of type numbers case by case |
| C83 | `SocketFactory` as a state machine over a changing disk and adversarial servers; the socket operations with arbitrary outcomes | invariant over all reachable factories; combined with the model of `_establish` (C16) |
| C84 | `UuidXml` | digits of a table, any hyphens/braces/prefix; XML library as a parameter with "reads what it writes" (an instance is given) |
| C85 | `Handles` | invariant over histories of objects, registries, garbage and server; identifiers injective in addresses |
| C86 | `chunks`, `rows`, `column`: the plans, their commands, and what is made of the rows, over a specified server (Parse, Bind, Execute, Sync, DECLARE WITH HOLD, FETCH) | induction over the rows, 4096 at a time, with an invariant about the cursor on the server that all other uses of the connection preserve; partial: see findings |
| C87 | `FloatTime`: the float formats of time, timetz, timestamp, timestamptz and interval, over IEEE 754 rounding of rationals; the choice of the format | `rnd` is proved to give a nearest double (`C87_rounding`); each operation is off by at most half a unit of the last place; the errors of the four operations are added up and compared with the `floor`. Exactness is refuted by witnesses |
| C88 | `DotConf`: the command `pg_dotconf` after `optparse`, over `ConfigFile` | the dictionary of the arguments has, for each name, what the last argument says; then the theorems of C33 about `update` |
| C89 | `ArrayCompare`: the rich comparisons of `Array`, over `PgArray` and Python's comparison of lists | a relation "holds the same nested list" between objects is kept by `list(a)` and by the comparison of lists; induction on the room on the stack |
| C90 | `Category`: `Category.__init__` and `__call__`; the order of the set is a parameter | the pairs of names and libraries as one list; induction over it |
| C91 | `PyCommand`: options, `Execution`; what Python does is a parameter, programs are any functions on the interpreter's state | specification of running programs in sequence (`Spec/PyCommand`); induction over the contexts, one theorem per kind of main program |
| C92 | `Console`: `ExtendedConsole`; Python, editor and files may depend on the whole history | a relation all commands keep (induction over files and words); invariant of the temporary names over sessions |
| C93 | `PgPython` over `PyCommand` | induction over refusals; dictionary lemmas for saving and restoring; composed with C91 |
| C94 | `Model/OptBuffer`: buffer.c, its linked list and its 32-bit arithmetic; simulation with `Model/PBuffer`, both against `Spec.view`/`parse`, by induction over histories of calls |
| C95 | `OptElement3`: element3.c without `consume_tuple_messages` (C96) | an independent wire format of rows and batches (`rowOnWire`, `batchOnWire`); both implementations proved equal to it by induction over the batch |
| C96 | `OptXact3`: `put_tupledata` with `consume_tuple_messages`, and the loop of the client around it | each read equals one or two batches of `Model/Xact3` (`drain_pieces`), induction over reads; then C10 |
| C97 | `OptStruct`: structlib.c with the byte order and the size of `long` of the host | memory as bytes, `swap` is reversal; against `Model/Struct` by cases at the borders of the ranges |
| C98 | `OptFunctools`: both versions of functools, with handlers and exceptions that are no `Exception` | the loop over positions is the loop over items, by induction; an independent specification of the row |
| C99 | `OptWire`: wirestate.c, the view from the position on | the loop in C gives what the loop in Python gives, by induction on the number of turns; it does not raise on messages of proper lengths, by induction on the rows; then `C34_position` | 
| C100 | `CursorArgs`: the values Python passes, before they are understood, and the commands sent | case analysis on the value against a separate relation of what is documented; refused calls change nothing, hence by induction any history equals the one without them; position from `C49_position` |
| C101 | `FetchWire`: `FetchAll` on the model of the connection (`Client3`), which reads bytes from a socket | simulation: a step reads nothing (try again) or a batch of the messages that remain; what is due does not depend on the batches (C12, C42); induction on the number of events and messages |
| C55-C57 | `Lifecycle` over `Client3` and `Xact3` | a principle of invariants of all calls (`Keeps`), instantiated with invariants for closed connections, errors and status |

## Trusted base

* Lean 4.33.0's kernel and at most the standard axioms `propext`, `Classical.choice`, `Quot.sound` (`#print axioms` of any theorem shows a subset). No axioms are added, nothing rests on compiled evaluation; `decide +kernel` is evaluated by the kernel. Mathlib is used only for ordered fields and square roots (`Geometry`); its lemmas are checked by the same kernel.
* The faithfulness of the models to the cited code (read by hand; the code cannot be run here).
* Python built-in semantics as modelled: `bytes`/`str` slicing and splitting, `struct`, `divmod`, `dict` (insertion order), `int(s, base)` for ASCII text, `%` formatting for the directives named below, `for` over a list that grows.
* The assumptions about the outside world listed here.

### What is modelled, what is not, and what is assumed

| model | code | assumed or left out |
|-------|------|---------------------|
| `PBuffer`, `Struct` | `protocol/pbuffer.py`, `protocol/message_types.py`, `python/structlib.py` | the C message stream |
| `Element3` | `protocol/element3.py` | `__repr__`, `WireMessage`, `ClientNotice`/`ClientError` (cannot be serialized) |
| `Xact3` | `protocol/xact3.py` `Instruction` | C `consume_tuple_messages`, texts of client errors, `__repr__` |
| `Negotiation` | `protocol/xact3.py` `Closing`, `Negotiation` | crypt and MD5 are parameters; `messages_received` (refers to a missing attribute) |
| `Client3` | `protocol/client3.py` | socket as queues of results; interrupts only at socket calls; `interrupt()`, tracing |
| `Establish` | `client3.py` `connect`, `pq3.py` `_establish` | network and server are parameters; what is done after the connection was made |
| `Lifecycle` | `driver/pq3.py` `Connection`: `close`, `connect`, `closed`, `state`, `_pq_push`, `_pq_complete`, `_pq_step` | `fuel` cuts off waiting for ever; the negotiation is `Established`; without a socket `send`/`recv` raise |
| `TypesLib`, `Numeric`, `DateTime`, `Hstore` | `types/io/*.py` | floats are IEEE images; float time formats; system time zone; codecs are parameters |
| `PgArray`, `Row`, `Bitwise` | `types/__init__.py`, `types/bitwise.py`, `python/functools.py`, `pq3.py` `TypeIO` packing | `geometry.py`, `namedtuple.py` |
| `TypeIo` | `pq3.py` `TypeIO.resolve`, `Statement._fini` | a finite catalog that does not change; `identify()`; names |
| `PgString`, `PyStr`, `PyInt` | `postgresql/string.py` | Unicode predicates are a parameter `Unicode` with its ASCII facts (`Unicode.ascii` shows they are consistent); `quote_re` is modelled by what the matcher does; separators are single characters |
| `PgPass`, `RiParse`, `Iri` | `pgpassfile.py`, `resolved/riparse.py`, `iri.py` | `Iri.Env`: Unicode and the IRI codec |
| `ConfigFile` | `configfile.py` | `os.linesep = "\n"`, universal newlines; `__enter__`, `__exit__`, `__iter__` (broken) |
| `CopyMan`, `CopyManager` | `copyman.py` | producers, sockets and callables are scripts; confiscating the connection |
| `DbApi`, `DbApiParams`, `DbApiConn` | `driver/dbapi20.py` | odd `%` directives are one error; recursion limit; statements contain no transaction control |
| `ALock` | `alock.py` | the server's advisory lock counters |
| `IterNotifies` | notifyman.py 188-192; driver/pq3.py 2716-2723 | one connection; leaving the loop early (`GeneratorExit`) |
| `NotifyMan` | `notifyman.py` | clock, select and set order from outside; whole ticks; errors of `select` |
| `Transaction` | `pq3.py` `Transaction` | blocks and savepoints as documented; statements contain no transaction control |
| `Settings` | `pq3.py` `Settings`, `SettingsCM` | run-time parameters as documented; failing statements change nothing; ParameterStatus before completion; callbacks do not raise |
| `Fetch` | `pq3.py` `FetchAll`, `MultiXactStream` | one batch per step; COPY FROM through a stream; portal semantics |
| `Statement` | `pq3.py` `Statement.__call__`, `first`, `column`; `element3.py` tags | as `Fetch`; tags are ASCII; row construction (C44) |
| `SqlText` | `pq3.py` composed SQL | encoding; text without NUL; `standard_conforming_strings` on; block comments, dollar quotes and prefixed constants have no reading |
| `Prepare` | `pq3.py` Statement._init/_fini, prepare, SingleExecution | type I/O is a parameter (C50); nested catalog queries of `resolve` are not interleaved |
| `Procedure` | `pq3.py` StoredProcedure, sql_type_from_oid; the tables of `types/__init__.py` | the catalog is a parameter; commands that bind a set's cursor are not modelled (C42 has the server's portal); `regproc` output as documented |
| `Cluster` | `cluster.py` Cluster (all but init) | POSIX; `__repr__` (raises KeyError), `hba_file`, `initialized`, pipes and Windows are not modelled; `ConfigFile` as in C33; connecting is one answer of the world (C18, C19 have its parts); loops take a number of rounds, and it is proved that some number suffices |
| `ClusterDrop` | `cluster.py` drop's removal, `os.walk` | the tree does not change meanwhile; no permissions; no special names |
| `ClusterInit` | `cluster.py` init | the program and the temporary file are outcomes; drive/log modes as text |
| `Encodings` | `encodings/aliases.py`; `set_encoding` | the codec table of Python is a parameter; str.lower/strip as in `PyStr` |
| `Temporal` | `temporal.py` push, pop, _init_c, __enter__, __exit__ | `init` is one outcome; `destroy`, threads and other processes are not modelled |
| `Installation` | `installation.py`, `python/os.py` | what programs answer, the environment and files are parameters; POSIX |
| `NamedTuple` | types/namedtuple.py | Python's `namedtuple(rename = True)` is modelled by its documented rule; `isidentifier`, `iskeyword` are parameters |
| `Geometry` | types/geometry.py | exact arithmetic in an ordered field instead of floats; `__repr__`, `__str__` not modelled |
| `Crypt` | resolved/crypt.py | words as naturals (the signs of `struct` are masked at once); `_test` not modelled |
| `CopyTo` | copyman.py `StatementProducer`; pq3.py `FetchAll._init`, `__next__` for `SingleXactCopy`; client3.py reading | the socket is the list of what its coming calls return; which exception is raised is not modelled; socket exceptions and `interrupt()` not modelled |
| `CopyReceiver` | copyman.py `ProtocolReceiver.accept/transmit`, `StatementReceiver.__enter__/__exit__` | the connection is `Lifecycle.Db` with its socket; `count()`/`command()` are not modelled |
| `Transfer` | copyman.py `CopyManager.__enter__/__exit__/run/_service_producer/_service_receivers`, `transfer` | source `CopyTo`, destinations `CopyReceiver`, each with its own connection; the transformer is the identity; `reconcile` and the progress numbers of `__next__` are not in it |
| `Manager` | copyman.py `CopyManager.__next__/reconcile`, `_stats` | over `Transfer`; any list of operations of the user; `reconcile` with the protocol of the manager |
| `Async` | pq3.py 2638-2663 `_receive_async`, 2057-2067 `Settings._notify`, 2519-2522, xact3.py 525-535 (hook, excepthook), client3.py 365-380 | the hooks found by a message and the exceptions of callbacks are parameters; the creator of a notice is not modelled; only `Exception`s |
| `Convert` | pq3.py 370-499 (array and record routines, their handlers), 501-516, 782-805, 1353-1413, 1690-1706, functools.py 37-69 | routines of types that are not arrays or records, `repr` and conversions to lists are parameters; the header of an array is packed after its elements; anonymous records one level |
| `PyWorld` | driver/pq3.py 349-365, 466-472; types/__init__.py 385-399: values for `Convert`: lists, tuples, `Array` objects. Not: dicts for composites, `Array` as a composite. |
| `Marker` | pq3.py 1266-1307: the LINE entry of a statement's description. |
| `Describe` | pq3.py 199-216, 815-837, 1427-1480: classes and names of columns; the third items of the I/O triples of types/io. |
| `ElementText` | python/element.py `format_element`, `ElementSet`; python/string.py `indent`; sys.py `default_errformat`; message.py `_e_metas`, `location_string` | objects are references into a heap, `str()` and `_e_metas` give a text or raise; identity for `in coverage` |
| `DbApiMany` | dbapi20.py 49-79, 259-304: `executemany`, `rowcount`, `description`, `dbapi_type`, constructors from ticks | results of queries (in `DbApi`), COPY statements |
| `Security` | python/socket.py 51-116, pq3.py 2793-2809 | protocol versions, ciphers, validity periods, certificate chains |
| `UuidXml` | stdlib_uuid.py; stdlib_xml_etree.py `xml_pack`/`xml_unpack`; lib.py path/vector formats | `uuid.UUID(text)` for ASCII; ElementTree is a parameter |
| `Handles` | pq3.py `ID`, `Output`/`Statement` life; client3.py registries, `take_out_trash` | addresses and moments of collection arbitrary; an exchange happens as a whole or is refused; lost connections not in this model |
| `Chunks` | pq3.py:636-780 (what streams send and how chunks are processed), 858-1063, 1602-1639 | the batches of a reply (in `Fetch`), statements whose preparation was interrupted |
| `FloatTime` | types/io/lib.py:76-134, 180-197; stdlib_datetime.py:210-295 | the bytes of a double (its value is used), overflow to infinity (nothing is near 2^1024), naive datetimes as `timestamptz`, the warning about months |
| `DotConf` | bin/pg_dotconf.py:33-77 | `optparse` (14-32), the messages on standard error, files that cannot be opened |
| `ArrayCompare` | types/__init__.py:385-409, 487-510, 549-554 | how elements compare is a parameter; the identity shortcut of `list.__eq__` is not modelled |
| `BitSlice` | types/bitwise.py:71-96 | slices with bounds that are not integers or None |
| `Domains` | pq3.py:152-165, lib/libsys.sql:42-78 | catalogs in which domains are over each other in a circle (the server does not let them) |
| `Category` | lib/__init__.py:404-431 | what a `Binding` does (`SymLib`); attributes whose lookup raises |
| `TemporalDestroy` | temporal.py:65-85 | over `Cluster`; `os.getpid` and `atexit` |
| `PyCommand` | python/command.py:62-203, 371-632 | options, loaders, `Execution`, `postmortem` |
| `Console` | python/command.py:206-369 | `ExtendedConsole` |
| `PgPython` | bin/pg_python.py:34-133 | the command, without its trace file |
| `OptBuffer` | port/_optimized/buffer.c; allocation never fails, reading outside of an object is `undefined` |
| `OptElement3` | port/_optimized/element3.c; attributes are None or `bytes`; memory is never short |
| `OptXact3` | xact3.py 641-655, client3.py 455-459 (identities of the slices of `self.read` are given in advance) |
| `OptStruct` | port/_optimized/structlib.c, structlib.py 42-75 |
| `OptFunctools` | python/functools.py, port/_optimized/functools.c (without `rsetattr`) |
| `OptWire` | port/_optimized/wirestate.c (`condition` is ignored by the code; failures of allocation are not modelled) |
| `CursorArgs` | driver/pq3.py: direction_str_to_bool, direction_to_bool, Cursor.direction, _which_way, read, __next__, seek (arguments); api.py: _seek_whence_map |
| `FetchWire` | driver/pq3.py: FetchAll._init, __next__, Connection._pq_step; protocol/client3.py: step (over `Client3`, `PBuffer`, `Xact3`) |
| `Cursor` | `pq3.py` `Cursor` | FETCH/MOVE positions as documented; the count returned by `seek` |
| `LoadRows` | `pq3.py` `load_rows`, `load_chunks` | the server is a parameter; what lies between two Syncs outside a block is one transaction |
| `VersionString`, `Itertools` | `versionstring.py`, `python/itertools.py` | ASCII; finite iterables |
| `Exceptions`, `Messages` | `exceptions.py`, `message.py`, `pq3.py` 46-68, 501-615 | class statements as data; decoder and `str.upper` are parameters; `creator`, `__cause__` |
| `SymLib` | `lib/__init__.py` | ILF files only; no module libraries, no callable symbols; answers of the database depend on the history of questions |
| `ClientParams` | `clientparameters.py`, `postgresql/__init__.py` `open` | `World` for OS, files, stdin, sockets; POSIX; command line parsing; prompts |
| `Connector` | `pq3.py` connectors, `api.py` `Connector` | codecs, `getaddrinfo`, `str()` are parameters; truncation of names; white space in search_path |

Not modelled at all: `cluster.py`, `installation.py`, `temporal.py`, `sys.py`, `project.py`, `encodings/aliases.py`, `python/{command,string,os,decorlib,element,doc,msw}.py`, `bin/`, `release/`, `documentation/`, `port/`, `types/geometry.py`, `types/namedtuple.py`, `types/io/stdlib_uuid.py` and `stdlib_xml_etree.py`, `resolved/crypt.py`, `test/`.

## Findings

Behaviours of the code that contradict its documentation, or what a user would expect, are theorems; see `MANIFEST.json` notes. The most important:

* C09: a row whose last attribute is cut short is accepted. C20: truncated array data is accepted.
* C10, C11: equal notifications in different batches are told apart by identity only; asynchronous messages are delivered again after an interruption.
* C14: the type of the message that is taken for AuthenticationOk is not checked.
* C15/C55: a transaction that failed because of a send is revived by a step; a forced synchronization reopens a lost connection; after a failed `connect()` every further one raises AttributeError.
* C29: splitting some texts at quotes and joining again is not the identity. C38: nested locks are lost.
* C45: SQL state 22019 and class 54 map to the wrong class. C47: settings from the environment are dropped, PGREQUIRESSL gives a pair.
* C59: `listen()` and `unlisten()` do not quote the channel name: it is folded to lower case, and can contain further commands; `notify()` quotes.
* C60: of two result columns with the same name only the last can be had by name.
* C61: a `bpchar` parameter of a stored procedure is cast to `CHARACTER`, that is `character(1)`: arguments are cut to one character, silently.
* C61: keyword arguments of stored procedures never work (NameError `argc`; for unknown names AttributeError instead of TypeError).
* C61: for types set up by `identify()` (hstore) the text has `$1::None`.
* C62: `ready_for_connections()`/`wait_until_started()` raise TypeError for a configuration without port and listen_addresses (as `initdb` writes it), `wait_until_stopped()` raises TypeError when a server not started by the object goes away between two looks, `last_exit_code` is never set to the status (it is None), blanks after commas in listen_addresses defeat the choice of the host, a crash that leaves the pid file is reported as not running without its status.
* C63: a stale pid file makes stop/kill/shutdown signal a foreign process; `start(settings = ...)` raises AttributeError; `with cluster:` leaves the server running when its wait raises; a negative number in the pid file (standalone backend) would signal a process group.
* C64: `drop()` raises NotADirectoryError for any cluster with a tablespace or `pg_wal` link, after having removed part of the files.
* C65: `init(password = ..., encoding = 'SQL_ASCII')` raises LookupError (the alias table has lower-case names); the details of InitDBError under 'stdout' are the standard error's; the fallback `pg_ctl initdb` passes options that pg_ctl does not take.
* C66: SHIFT_JIS_2004 is decoded as EUC_JIS_2004; EUC_TW and MULE_INTERNAL have no codec (LookupError when reported).
* C67: builtins that had the names before are removed, not restored, because the bottom of the stack is a pair; `new` is left behind; an interrupt leaves schema and connections, and the next context fails to be entered. Not modelled: `destroy()` uses `cluster` before it is assigned (the error is swallowed, backends are not terminated); when init fails after start the server is left running.
* C68: `Installation` raises ValueError for every version with a suffix (all distribution packages); `includedir_server` is always None (printed as INCLUDEDIR-SERVER); a failing or slow pg_config ends in AttributeError; dashes and double quotes at the end of configure arguments are lost, arguments with single quotes taken apart.
* C69: `NamedTupleFactory` cannot make rows of results that have two columns of the same name: every row raises TypeError. (Its docstring also calls `db.typio.RowTypeFactory(NamedTupleFactory)`, which installs nothing: it must be assigned.)
* C70: `Point / Point` raises TypeError (only Python 2's `__div__` is defined), and `__div__` has a wrong sign; `Lseg.perpendicular` tests the quotient of the slopes instead of the product, so that slopes 2 and -1/2 are not, and 2 and -2 are perpendicular; vertical segments raise ZeroDivisionError in `slope`, `parallel`, `perpendicular`; a `Box` with NaN is exchanged whenever it is made anew.
* C72: if the last rows of a COPY, ReadyForQuery and a part of a later asynchronous message arrive in the same read, `confiscate` raises AttributeError (its assertion reads `_state.final_view` where `_state` is None) and these rows are lost.
* C73: if the socket of a receiver raises in the middle of a message, the manager drops the receiver without leaving it; the next operation on its connection sends CopyFail inside the unfinished CopyData message (`C73_torn_message`). If the destination's connection is used during the COPY and the error is caught, the COPY has failed but leaving the receiver in success returns (`C73_success_without_commit`).
* C74: a transfer to several destinations is not atomic: if one refuses at the end, `CopyFail` is raised though others have committed (`C74_not_atomic`).
* C75: `reconcile` after the iteration went on loses data silently (`C75_late_reconcile`); leaving the loop early, at a message boundary with everything already received, commits a part of the rows (`C75_break_commits`).
* C76: of two equal notifications in one batch one is dropped (`C76_equal_dropped`); messages that arrive while discarded statements are closed are dropped: that transaction has no hook (`C76_closing_drops`); a callback that raises, or an encoding Python does not have, leaves `settings` with the old value (`C76_callback_stale`, `C76_unknown_encoding`); notices during connect are dropped (`C76_greeting_notices`).
* C77: `first()` of one column raises the bare exception of the routine, not a ColumnError (`C77_first_bare`); a cursor of `cursor_from_id` raises AttributeError for data it cannot unpack (`C77_cursor_from_id`); errors inside arrays do not say which element (`C77_element`).
* C79: an error at the end of the input (position = length + 1) is marked under the last character.
* C80: `column_types` raises IndexError with a column of type oid, xid, cid, tid, uuid, record or identified hstore; UnboundLocalError for a type not in the catalog; inet, cidr, bit(n), xml and arrays without binary output give values of another class; `sql_column_types` of a cursor without columns raises TypeError.
* C81: a loop through an `ElementSet` is not noticed as RecursiveFactor: its members are formatted with an empty coverage, so it ends with RecursionError.
* C82: `executemany` accepts mappings with extra keys that `execute` refuses; a statement without markers is executed once by `executemany` and then an error is raised; numeric, float, date, time, interval and character columns are described with type code None; ROWID and NUMBER are the same object; `executemany` leaves the description of the previous query; `TimestampFromTicks` passes the day of the week as microseconds (`C82_timestamp_ticks`).
* C83: without `sslrootcrtfile` the TLS context trusts no authority at all, so that sslmode `prefer` (the default) and `require` connect to no server that has SSL (`C83_prefer_without_root`, `C83_require_without_root`); the name of the server is never checked; the context is stored before it is filled, so a factory whose files could not be loaded never works again; KeyboardInterrupt while connecting leaves the socket open; `find_available_port` ignores `interface`.
* C84: text before the first element of XML content is lost when it is read (plain text content comes back as an empty tuple); `path_pack`/`polygon_pack` send the number of coordinates instead of points (unused by connections); `oidvector_pack`/`int2vector_pack` always raise TypeError; texts such as `0x00…01` are taken for UUIDs.
* C86: outside of a transaction block `rows()`, `chunks()` and `column()` declare a cursor; `INSERT … RETURNING` cannot be declared, and fails. `chunks()` of a `statement_from_id` outside of a block raises AttributeError (`SingleXactFetch` has no `_process_chunk`). `column()` of a COPY raises TypeError.
* C87: with float times `mktimetuple` truncates instead of rounding: about a third to a half of all values with microseconds come back a microsecond early (00:00:01.000001 as 00:00:01). 9999-12-31 23:59:59.999998 sent to such a server raises OverflowError when read back; 0001-01-01 00:00:00.000001 reads as the datetime that stands for `-infinity`.
* C88: `pg_dotconf -f settings …` fails with NameError for any settings file with a setting in it (`comment` and `unquote` are not imported). Putting a setting into an empty file raises IndexError.
* C89: an array whose elements are lists of different lengths (JSON values) cannot be copied or unpickled: `__getnewargs__` gives the nested lists, and `Array()` then takes the elements for dimensions (ValueError).
* C24: every non-empty bit string counts as true, zeros too (`__nonzero__` is Python 2); an empty slice of a single bit raises ValueError.
* C90: a name that is taken raises NameError (the message uses a variable that does not exist), with the libraries before it already bound.
* C67: at the end of the process the connections to the temporary cluster are never ended (UnboundLocalError, ignored); with one still open the server does not end within five seconds, an error is raised, and the cluster is left running with its files (`C67_destroy_stuck`).
* C91: after `Execution.__call__` `os.environ` is a plain dictionary (`os.environ.copy()`): variables a program set stay in the process's environment, later ones do not get there (`C91_environment_lost`). A context that exits with 0 makes the run fail with 1. A post mortem path whose module cannot be imported keeps the program from running.
* C92: `\i Name` of a name that is no temporary file executes the file of the lower-cased name (`C92_i_lowercases`).
* C93: the built-ins that did not exist before are left as `None` (`C93_builtins_left`); the clean-up loop would use an undefined name. A script that cannot be read leaves the connection open; the library path keeps the current directory after a normal end.
* C94: the C stream: `read()` raises SystemError (from `PyTuple_New(-1)`) instead of ValueError when a malformed length is pending anywhere, and gives none of the messages before it; a negative count other than -1 likewise; a type byte of 128 or more indexes the tuple of types negatively where `char` is signed; with 2^32 pending bytes a complete message is not seen.
* C95: `cat_messages` in C writes `00 00 00 04` for a `Void` (Python writes nothing), sends COPY lines of 2^31-4 bytes and more, for which Python raises, and raises SystemError for an attribute of 2^32-1 bytes; `parse_tuple_message` rejects the cut attributes that `Tuple.parse` accepts (C09).
* C96: with the C function a row that is cut short raises ValueError (nothing of the read is stored); without it the row is accepted. An empty batch raises IndexError only without it.
* C98: `process_tuple` in C raises TypeError for rows that are lists; `process_chunk` in C exhausts the iterable before the first row is processed.
* C99: the WireState in C refuses length words below four, whatever the cut; Python does not (`C34_short_length`). The largest length word (2^32-1) is refused in C when the header comes in one piece, and taken when it is cut. After the end, an empty view is taken in C and refused in Python. `condition` is ignored in C.
* C100: `Cursor.seek(0, 7)` raises AttributeError instead of TypeError; `Cursor.read(0, anything)` is not refused.
* C21: the zone of a timetz is packed as seconds east of Greenwich where the server expects seconds west (`C21_timetz_sign`): 12:00+02 is stored as 12:00-02.
* C35: leaving the `with` block early, between two messages and without an exception, makes `realign` end the producer, which is taken for the end of its data: the receivers are told to commit, and no error is raised unless leaving the producer raises (`C35_early_leave`). Even if it does, the receivers were left with `typ = None` and have sent CopyDone (copyman.py:735-742).
* C66 (more): the alias WIN is looked for as codec `cp`.
* C58: `column()` raises TypeError for a NULL; `first()` cannot tell NULL from no row.
* C51: loading is not atomic outside a block. C52: `load_chunks` on a statement that is not a COPY raises only after running it; an interrupted load makes the next operation fail. C56: `close()`, `synchronize()` and the closing of abandoned cursors swallow errors.

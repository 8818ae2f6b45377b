import Verif.Model.PyDict
/-!
# postgresql/exceptions.py: the classes of errors and warnings, and their lookup by SQL state

The class statements are data: `Cls`, `bases`, `ownCode`, `ownPgCode` and `statements` were taken from the file, one entry for each `class` statement.
`EscapeCharacterError` is the name of two statements (585, 593): the first class is `EscapeCharacterError_old`.
Classes of Python itself are `builtins_…`; docstrings, `_e_label`, `source`, `__str__` and `fatal` are not modelled here.
-/
namespace PG.Exceptions
open PG

/-- The classes (exceptions.py:37-676), with the ones they are made from. -/
inductive Cls where
  | builtins_Exception | builtins_MemoryError | builtins_OverflowError | Message | Exception | LoadError | Disconnection | Warning | DriverWarning
  | IgnoredClientParameterWarning | TypeConversionWarning | DeprecationWarning | DynamicResultSetsReturnedWarning | ImplicitZeroBitPaddingWarning
  | NullValueEliminatedInSetFunctionWarning | PrivilegeNotGrantedWarning | PrivilegeNotRevokedWarning | StringDataRightTruncationWarning
  | NoDataWarning | NoMoreSetsReturned | Error | DriverError | AuthenticationMethodError | InsecurityError | ConnectTimeoutError | TypeIOError
  | ParameterError | ColumnError | CompositeError | OperationError | TransactionError | SQLNotYetCompleteError | ConnectionError
  | ConnectionDoesNotExistError | ConnectionFailureError | ClientCannotConnectError | ConnectionRejectionError | TransactionResolutionUnknownError
  | ProtocolError | TriggeredActionError | FeatureError | TransactionInitiationError | LocatorError | LocatorSpecificationError | GrantorError
  | GrantorOperationError | RoleSpecificationError | CaseNotFoundError | CardinalityError | TriggeredDataChangeViolation
  | AuthenticationSpecificationError | DPDSEError | DPDSEObjectError | SREError | FunctionExecutedNoReturnStatementError
  | DataModificationProhibitedError | StatementProhibitedError | ReadingDataProhibitedError | EREError | ContainingSQLNotPermittedError
  | ModifyingSQLDataNotPermittedError | ProhibitedSQLStatementError | ReadingSQLDataNotPermittedError | ERIEError | InvalidSQLState
  | NullValueNotAllowed | TriggerProtocolError | SRFProtocolError | TRError | DeadlockError | IntegrityConstraintViolationError | SerializationError
  | StatementCompletionUnknownError | ITSError | ActiveTransactionError | BranchAlreadyActiveError | BadAccessModeForBranchError
  | BadIsolationForBranchError | NoActiveTransactionForBranchError | ReadOnlyTransactionError | SchemaAndDataStatementsError
  | InconsistentCursorIsolationError | NoActiveTransactionError | InFailedTransactionError | SavepointError | InvalidSavepointSpecificationError
  | TransactionTerminationError | IRError | MemoryError | DiskFullError | TooManyConnectionsError | PLEError | ComplexityOverflowError
  | ColumnOverflowError | ArgumentOverflowError | ONIPSError | ObjectInUseError | ImmutableRuntimeParameterError | UnavailableLockError | SEARVError
  | SEARVNameError | NameTooLongError | ReservedNameError | ForeignKeyCreationError | InsufficientPrivilegeError | GroupingError | RecursionError
  | WindowError | SyntaxError | TypeError | CoercionError | TypeMismatchError | IndeterminateTypeError | WrongObjectTypeError | UndefinedError
  | UndefinedColumnError | UndefinedFunctionError | UndefinedTableError | UndefinedParameterError | UndefinedObjectError | DuplicateError
  | DuplicateColumnError | DuplicateCursorError | DuplicateDatabaseError | DuplicateFunctionError | DuplicatePreparedStatementError
  | DuplicateSchemaError | DuplicateTableError | DuplicateAliasError | DuplicateObjectError | AmbiguityError | AmbiguousColumnError
  | AmbiguousFunctionError | AmbiguousParameterError | AmbiguousAliasError | ColumnReferenceError | DefinitionError | ColumnDefinitionError
  | CursorDefinitionError | DatabaseDefinitionError | FunctionDefinitionError | PreparedStatementDefinitionError | SchemaDefinitionError
  | TableDefinitionError | ObjectDefinitionError | CursorStateError | WithCheckOptionError | NameError | CatalogNameError | CursorNameError
  | StatementNameError | SchemaNameError | ICVError | RestrictError | NotNullError | ForeignKeyError | UniqueError | CheckError | DataError
  | StringRightTruncationError | StringDataLengthError | ZeroLengthString | EncodingError | ArrayElementError | SpecificTypeMismatch
  | NullValueNotAllowedError | NullValueNoIndicatorParameter | ZeroDivisionError | FloatingPointError | AssignmentError | IndicatorOverflowError
  | BadCopyError | TextRepresentationError | BinaryRepresentationError | UntranslatableCharacterError | NonstandardUseOfEscapeCharacterError
  | NotXMLError | XMLDocumentError | XMLContentError | XMLCommentError | XMLProcessingInstructionError | DateTimeFormatError
  | TimeZoneDisplacementValueError | DateTimeFieldOverflowError | IntervalFieldOverflowError | LogArgumentError | PowerFunctionArgumentError
  | WidthBucketFunctionArgumentError | CastCharacterValueError | EscapeCharacterError_old | EscapeOctetError | EscapeSequenceError
  | EscapeCharacterConflictError | EscapeCharacterError | SubstringError | TrimError | IndicatorParameterValueError | LimitValueError
  | OffsetValueError | ParameterValueError | RegularExpressionError | NumericRangeError | UnterminatedCStringError | InternalError
  | DataCorruptedError | IndexCorruptedError | SIOError | UndefinedFileError | DuplicateFileError | CFError | LockFileExistsError | OIError
  | QueryCanceledError | AdminShutdownError | CrashShutdownError | ServerNotReadyError | PLPGSQLError | PLPGSQLRaiseError | PLPGSQLNoDataFoundError
  | PLPGSQLTooManyRowsError
  deriving DecidableEq

/-- The bases of a class statement (exceptions.py, the line at each), and of `Message` (message.py:10, api.py:37; its own base `Element` is left out). -/
def bases : Cls → List Cls
  | .Exception => [.builtins_Exception] -- 38
  | .LoadError => [.Exception] -- 44
  | .Disconnection => [.Exception] -- 49
  | .Warning => [.Message] -- 54
  | .DriverWarning => [.Warning] -- 58
  | .IgnoredClientParameterWarning => [.DriverWarning] -- 61
  | .TypeConversionWarning => [.DriverWarning] -- 64
  | .DeprecationWarning => [.Warning] -- 68
  | .DynamicResultSetsReturnedWarning => [.Warning] -- 70
  | .ImplicitZeroBitPaddingWarning => [.Warning] -- 72
  | .NullValueEliminatedInSetFunctionWarning => [.Warning] -- 74
  | .PrivilegeNotGrantedWarning => [.Warning] -- 76
  | .PrivilegeNotRevokedWarning => [.Warning] -- 78
  | .StringDataRightTruncationWarning => [.Warning] -- 80
  | .NoDataWarning => [.Warning] -- 83
  | .NoMoreSetsReturned => [.NoDataWarning] -- 85
  | .Error => [.Message, .Exception] -- 88
  | .DriverError => [.Error] -- 106
  | .AuthenticationMethodError => [.DriverError, .Disconnection] -- 112
  | .InsecurityError => [.DriverError, .Disconnection] -- 118
  | .ConnectTimeoutError => [.DriverError, .Disconnection] -- 123
  | .TypeIOError => [.DriverError] -- 129
  | .ParameterError => [.TypeIOError] -- 134
  | .ColumnError => [.TypeIOError] -- 136
  | .CompositeError => [.TypeIOError] -- 138
  | .OperationError => [.DriverError] -- 141
  | .TransactionError => [.Error] -- 147
  | .SQLNotYetCompleteError => [.Error] -- 150
  | .ConnectionError => [.Error, .Disconnection] -- 153
  | .ConnectionDoesNotExistError => [.ConnectionError] -- 155
  | .ConnectionFailureError => [.ConnectionError] -- 160
  | .ClientCannotConnectError => [.ConnectionError] -- 166
  | .ConnectionRejectionError => [.ConnectionError] -- 172
  | .TransactionResolutionUnknownError => [.ConnectionError] -- 174
  | .ProtocolError => [.ConnectionError] -- 176
  | .TriggeredActionError => [.Error] -- 179
  | .FeatureError => [.Error] -- 182
  | .TransactionInitiationError => [.TransactionError] -- 188
  | .LocatorError => [.Error] -- 191
  | .LocatorSpecificationError => [.LocatorError] -- 193
  | .GrantorError => [.Error] -- 196
  | .GrantorOperationError => [.GrantorError] -- 198
  | .RoleSpecificationError => [.Error] -- 201
  | .CaseNotFoundError => [.Error] -- 204
  | .CardinalityError => [.Error] -- 207
  | .TriggeredDataChangeViolation => [.Error] -- 213
  | .AuthenticationSpecificationError => [.Error, .Disconnection] -- 216
  | .DPDSEError => [.Error] -- 219
  | .DPDSEObjectError => [.DPDSEError] -- 224
  | .SREError => [.Error] -- 227
  | .FunctionExecutedNoReturnStatementError => [.SREError] -- 232
  | .DataModificationProhibitedError => [.SREError] -- 234
  | .StatementProhibitedError => [.SREError] -- 236
  | .ReadingDataProhibitedError => [.SREError] -- 238
  | .EREError => [.Error] -- 241
  | .ContainingSQLNotPermittedError => [.EREError] -- 246
  | .ModifyingSQLDataNotPermittedError => [.EREError] -- 248
  | .ProhibitedSQLStatementError => [.EREError] -- 250
  | .ReadingSQLDataNotPermittedError => [.EREError] -- 252
  | .ERIEError => [.Error] -- 255
  | .InvalidSQLState => [.ERIEError] -- 260
  | .NullValueNotAllowed => [.ERIEError] -- 262
  | .TriggerProtocolError => [.ERIEError] -- 264
  | .SRFProtocolError => [.ERIEError] -- 266
  | .TRError => [.TransactionError] -- 269
  | .DeadlockError => [.TRError] -- 274
  | .IntegrityConstraintViolationError => [.TRError] -- 276
  | .SerializationError => [.TRError] -- 278
  | .StatementCompletionUnknownError => [.TRError] -- 280
  | .ITSError => [.TransactionError] -- 284
  | .ActiveTransactionError => [.ITSError] -- 289
  | .BranchAlreadyActiveError => [.ITSError] -- 291
  | .BadAccessModeForBranchError => [.ITSError] -- 293
  | .BadIsolationForBranchError => [.ITSError] -- 295
  | .NoActiveTransactionForBranchError => [.ITSError] -- 297
  | .ReadOnlyTransactionError => [.ITSError] -- 299
  | .SchemaAndDataStatementsError => [.ITSError] -- 304
  | .InconsistentCursorIsolationError => [.ITSError] -- 309
  | .NoActiveTransactionError => [.ITSError] -- 315
  | .InFailedTransactionError => [.ITSError] -- 317
  | .SavepointError => [.TransactionError] -- 324
  | .InvalidSavepointSpecificationError => [.SavepointError] -- 329
  | .TransactionTerminationError => [.TransactionError] -- 332
  | .IRError => [.Error] -- 335
  | .MemoryError => [.IRError, .builtins_MemoryError] -- 340
  | .DiskFullError => [.IRError] -- 342
  | .TooManyConnectionsError => [.IRError] -- 344
  | .PLEError => [.builtins_OverflowError] -- 347
  | .ComplexityOverflowError => [.PLEError] -- 352
  | .ColumnOverflowError => [.PLEError] -- 354
  | .ArgumentOverflowError => [.PLEError] -- 356
  | .ONIPSError => [.Error] -- 359
  | .ObjectInUseError => [.ONIPSError] -- 364
  | .ImmutableRuntimeParameterError => [.ONIPSError] -- 366
  | .UnavailableLockError => [.ONIPSError] -- 368
  | .SEARVError => [.Error] -- 372
  | .SEARVNameError => [.SEARVError] -- 378
  | .NameTooLongError => [.SEARVError] -- 380
  | .ReservedNameError => [.SEARVError] -- 382
  | .ForeignKeyCreationError => [.SEARVError] -- 385
  | .InsufficientPrivilegeError => [.SEARVError] -- 388
  | .GroupingError => [.SEARVError] -- 390
  | .RecursionError => [.SEARVError] -- 393
  | .WindowError => [.SEARVError] -- 395
  | .SyntaxError => [.SEARVError] -- 398
  | .TypeError => [.SEARVError] -- 401
  | .CoercionError => [.TypeError] -- 403
  | .TypeMismatchError => [.TypeError] -- 405
  | .IndeterminateTypeError => [.TypeError] -- 407
  | .WrongObjectTypeError => [.TypeError] -- 409
  | .UndefinedError => [.SEARVError] -- 412
  | .UndefinedColumnError => [.UndefinedError] -- 414
  | .UndefinedFunctionError => [.UndefinedError] -- 416
  | .UndefinedTableError => [.UndefinedError] -- 418
  | .UndefinedParameterError => [.UndefinedError] -- 420
  | .UndefinedObjectError => [.UndefinedError] -- 422
  | .DuplicateError => [.SEARVError] -- 425
  | .DuplicateColumnError => [.DuplicateError] -- 427
  | .DuplicateCursorError => [.DuplicateError] -- 429
  | .DuplicateDatabaseError => [.DuplicateError] -- 431
  | .DuplicateFunctionError => [.DuplicateError] -- 433
  | .DuplicatePreparedStatementError => [.DuplicateError] -- 435
  | .DuplicateSchemaError => [.DuplicateError] -- 437
  | .DuplicateTableError => [.DuplicateError] -- 439
  | .DuplicateAliasError => [.DuplicateError] -- 441
  | .DuplicateObjectError => [.DuplicateError] -- 443
  | .AmbiguityError => [.SEARVError] -- 446
  | .AmbiguousColumnError => [.AmbiguityError] -- 448
  | .AmbiguousFunctionError => [.AmbiguityError] -- 450
  | .AmbiguousParameterError => [.AmbiguityError] -- 452
  | .AmbiguousAliasError => [.AmbiguityError] -- 454
  | .ColumnReferenceError => [.SEARVError] -- 457
  | .DefinitionError => [.SEARVError] -- 460
  | .ColumnDefinitionError => [.DefinitionError] -- 462
  | .CursorDefinitionError => [.DefinitionError] -- 464
  | .DatabaseDefinitionError => [.DefinitionError] -- 466
  | .FunctionDefinitionError => [.DefinitionError] -- 468
  | .PreparedStatementDefinitionError => [.DefinitionError] -- 470
  | .SchemaDefinitionError => [.DefinitionError] -- 472
  | .TableDefinitionError => [.DefinitionError] -- 474
  | .ObjectDefinitionError => [.DefinitionError] -- 476
  | .CursorStateError => [.Error] -- 480
  | .WithCheckOptionError => [.Error] -- 483
  | .NameError => [.Error] -- 486
  | .CatalogNameError => [.NameError] -- 488
  | .CursorNameError => [.NameError] -- 490
  | .StatementNameError => [.NameError] -- 492
  | .SchemaNameError => [.NameError] -- 494
  | .ICVError => [.Error] -- 497
  | .RestrictError => [.ICVError] -- 502
  | .NotNullError => [.ICVError] -- 504
  | .ForeignKeyError => [.ICVError] -- 506
  | .UniqueError => [.ICVError] -- 508
  | .CheckError => [.ICVError] -- 510
  | .DataError => [.Error] -- 514
  | .StringRightTruncationError => [.DataError] -- 517
  | .StringDataLengthError => [.DataError] -- 519
  | .ZeroLengthString => [.DataError] -- 521
  | .EncodingError => [.DataError] -- 524
  | .ArrayElementError => [.DataError] -- 526
  | .SpecificTypeMismatch => [.DataError] -- 528
  | .NullValueNotAllowedError => [.DataError] -- 531
  | .NullValueNoIndicatorParameter => [.DataError] -- 533
  | .ZeroDivisionError => [.DataError] -- 536
  | .FloatingPointError => [.DataError] -- 538
  | .AssignmentError => [.DataError] -- 540
  | .IndicatorOverflowError => [.DataError] -- 542
  | .BadCopyError => [.DataError] -- 544
  | .TextRepresentationError => [.DataError] -- 547
  | .BinaryRepresentationError => [.DataError] -- 549
  | .UntranslatableCharacterError => [.DataError] -- 551
  | .NonstandardUseOfEscapeCharacterError => [.DataError] -- 553
  | .NotXMLError => [.DataError] -- 556
  | .XMLDocumentError => [.DataError] -- 558
  | .XMLContentError => [.DataError] -- 560
  | .XMLCommentError => [.DataError] -- 562
  | .XMLProcessingInstructionError => [.DataError] -- 564
  | .DateTimeFormatError => [.DataError] -- 567
  | .TimeZoneDisplacementValueError => [.DataError] -- 569
  | .DateTimeFieldOverflowError => [.DataError] -- 571
  | .IntervalFieldOverflowError => [.DataError] -- 573
  | .LogArgumentError => [.DataError] -- 576
  | .PowerFunctionArgumentError => [.DataError] -- 578
  | .WidthBucketFunctionArgumentError => [.DataError] -- 580
  | .CastCharacterValueError => [.DataError] -- 582
  | .EscapeCharacterError_old => [.DataError] -- 585
  | .EscapeOctetError => [.DataError] -- 587
  | .EscapeSequenceError => [.DataError] -- 589
  | .EscapeCharacterConflictError => [.DataError] -- 591
  | .EscapeCharacterError => [.DataError] -- 593
  | .SubstringError => [.DataError] -- 599
  | .TrimError => [.DataError] -- 601
  | .IndicatorParameterValueError => [.DataError] -- 603
  | .LimitValueError => [.DataError] -- 606
  | .OffsetValueError => [.DataError] -- 609
  | .ParameterValueError => [.DataError] -- 612
  | .RegularExpressionError => [.DataError] -- 614
  | .NumericRangeError => [.DataError] -- 616
  | .UnterminatedCStringError => [.DataError] -- 618
  | .InternalError => [.Error] -- 622
  | .DataCorruptedError => [.InternalError] -- 624
  | .IndexCorruptedError => [.InternalError] -- 626
  | .SIOError => [.Error] -- 629
  | .UndefinedFileError => [.SIOError] -- 634
  | .DuplicateFileError => [.SIOError] -- 636
  | .CFError => [.Error] -- 639
  | .LockFileExistsError => [.CFError] -- 644
  | .OIError => [.Error] -- 647
  | .QueryCanceledError => [.OIError] -- 652
  | .AdminShutdownError => [.OIError, .Disconnection] -- 654
  | .CrashShutdownError => [.OIError, .Disconnection] -- 656
  | .ServerNotReadyError => [.OIError, .Disconnection] -- 658
  | .PLPGSQLError => [.Error] -- 664
  | .PLPGSQLRaiseError => [.PLPGSQLError] -- 669
  | .PLPGSQLNoDataFoundError => [.PLPGSQLError] -- 674
  | .PLPGSQLTooManyRowsError => [.PLPGSQLError] -- 676
  | _ => []

/-- The `code` in the body of a class statement (exceptions.py, the line of the class at each; message.py:31). -/
def ownCode : Cls → Option Str
  | .Message => some "00000".toList
  | .Warning => some "01000".toList -- 54
  | .DriverWarning => some "01-00".toList -- 58
  | .IgnoredClientParameterWarning => some "01-CP".toList -- 61
  | .TypeConversionWarning => some "01-TP".toList -- 64
  | .DeprecationWarning => some "01P01".toList -- 68
  | .DynamicResultSetsReturnedWarning => some "0100C".toList -- 70
  | .ImplicitZeroBitPaddingWarning => some "01008".toList -- 72
  | .NullValueEliminatedInSetFunctionWarning => some "01003".toList -- 74
  | .PrivilegeNotGrantedWarning => some "01007".toList -- 76
  | .PrivilegeNotRevokedWarning => some "01006".toList -- 78
  | .StringDataRightTruncationWarning => some "01004".toList -- 80
  | .NoDataWarning => some "02000".toList -- 83
  | .NoMoreSetsReturned => some "02001".toList -- 85
  | .Error => some "".toList -- 88
  | .DriverError => some "--000".toList -- 106
  | .AuthenticationMethodError => some "--AUT".toList -- 112
  | .InsecurityError => some "--SEC".toList -- 118
  | .ConnectTimeoutError => some "--TOE".toList -- 123
  | .TypeIOError => some "--TIO".toList -- 129
  | .ParameterError => some "--PIO".toList -- 134
  | .ColumnError => some "--CIO".toList -- 136
  | .CompositeError => some "--cIO".toList -- 138
  | .OperationError => some "--OPE".toList -- 141
  | .SQLNotYetCompleteError => some "03000".toList -- 150
  | .ConnectionError => some "08000".toList -- 153
  | .ConnectionDoesNotExistError => some "08003".toList -- 155
  | .ConnectionFailureError => some "08006".toList -- 160
  | .ClientCannotConnectError => some "08001".toList -- 166
  | .ConnectionRejectionError => some "08004".toList -- 172
  | .TransactionResolutionUnknownError => some "08007".toList -- 174
  | .ProtocolError => some "08P01".toList -- 176
  | .TriggeredActionError => some "09000".toList -- 179
  | .FeatureError => some "0A000".toList -- 182
  | .TransactionInitiationError => some "0B000".toList -- 188
  | .LocatorError => some "0F000".toList -- 191
  | .LocatorSpecificationError => some "0F001".toList -- 193
  | .GrantorError => some "0L000".toList -- 196
  | .GrantorOperationError => some "0LP01".toList -- 198
  | .RoleSpecificationError => some "0P000".toList -- 201
  | .CaseNotFoundError => some "20000".toList -- 204
  | .CardinalityError => some "21000".toList -- 207
  | .TriggeredDataChangeViolation => some "27000".toList -- 213
  | .AuthenticationSpecificationError => some "28000".toList -- 216
  | .DPDSEError => some "2B000".toList -- 219
  | .DPDSEObjectError => some "2BP01".toList -- 224
  | .SREError => some "2F000".toList -- 227
  | .FunctionExecutedNoReturnStatementError => some "2F005".toList -- 232
  | .DataModificationProhibitedError => some "2F002".toList -- 234
  | .StatementProhibitedError => some "2F003".toList -- 236
  | .ReadingDataProhibitedError => some "2F004".toList -- 238
  | .EREError => some "38000".toList -- 241
  | .ContainingSQLNotPermittedError => some "38001".toList -- 246
  | .ModifyingSQLDataNotPermittedError => some "38002".toList -- 248
  | .ProhibitedSQLStatementError => some "38003".toList -- 250
  | .ReadingSQLDataNotPermittedError => some "38004".toList -- 252
  | .ERIEError => some "39000".toList -- 255
  | .InvalidSQLState => some "39001".toList -- 260
  | .NullValueNotAllowed => some "39004".toList -- 262
  | .TriggerProtocolError => some "39P01".toList -- 264
  | .SRFProtocolError => some "39P02".toList -- 266
  | .TRError => some "40000".toList -- 269
  | .DeadlockError => some "40P01".toList -- 274
  | .IntegrityConstraintViolationError => some "40002".toList -- 276
  | .SerializationError => some "40001".toList -- 278
  | .StatementCompletionUnknownError => some "40003".toList -- 280
  | .ITSError => some "25000".toList -- 284
  | .ActiveTransactionError => some "25001".toList -- 289
  | .BranchAlreadyActiveError => some "25002".toList -- 291
  | .BadAccessModeForBranchError => some "25003".toList -- 293
  | .BadIsolationForBranchError => some "25004".toList -- 295
  | .NoActiveTransactionForBranchError => some "25005".toList -- 297
  | .ReadOnlyTransactionError => some "25006".toList -- 299
  | .SchemaAndDataStatementsError => some "25007".toList -- 304
  | .InconsistentCursorIsolationError => some "25008".toList -- 309
  | .NoActiveTransactionError => some "25P01".toList -- 315
  | .InFailedTransactionError => some "25P02".toList -- 317
  | .SavepointError => some "3B000".toList -- 324
  | .InvalidSavepointSpecificationError => some "3B001".toList -- 329
  | .TransactionTerminationError => some "2D000".toList -- 332
  | .IRError => some "53000".toList -- 335
  | .MemoryError => some "53200".toList -- 340
  | .DiskFullError => some "53100".toList -- 342
  | .TooManyConnectionsError => some "53300".toList -- 344
  | .PLEError => some "54000".toList -- 347
  | .ComplexityOverflowError => some "54001".toList -- 352
  | .ColumnOverflowError => some "54011".toList -- 354
  | .ArgumentOverflowError => some "54023".toList -- 356
  | .ONIPSError => some "55000".toList -- 359
  | .ObjectInUseError => some "55006".toList -- 364
  | .ImmutableRuntimeParameterError => some "55P02".toList -- 366
  | .UnavailableLockError => some "55P03".toList -- 368
  | .SEARVError => some "42000".toList -- 372
  | .SEARVNameError => some "42602".toList -- 378
  | .NameTooLongError => some "42622".toList -- 380
  | .ReservedNameError => some "42939".toList -- 382
  | .ForeignKeyCreationError => some "42830".toList -- 385
  | .InsufficientPrivilegeError => some "42501".toList -- 388
  | .GroupingError => some "42803".toList -- 390
  | .RecursionError => some "42P19".toList -- 393
  | .WindowError => some "42P20".toList -- 395
  | .SyntaxError => some "42601".toList -- 398
  | .CoercionError => some "42846".toList -- 403
  | .TypeMismatchError => some "42804".toList -- 405
  | .IndeterminateTypeError => some "42P18".toList -- 407
  | .WrongObjectTypeError => some "42809".toList -- 409
  | .UndefinedColumnError => some "42703".toList -- 414
  | .UndefinedFunctionError => some "42883".toList -- 416
  | .UndefinedTableError => some "42P01".toList -- 418
  | .UndefinedParameterError => some "42P02".toList -- 420
  | .UndefinedObjectError => some "42704".toList -- 422
  | .DuplicateColumnError => some "42701".toList -- 427
  | .DuplicateCursorError => some "42P03".toList -- 429
  | .DuplicateDatabaseError => some "42P04".toList -- 431
  | .DuplicateFunctionError => some "42723".toList -- 433
  | .DuplicatePreparedStatementError => some "42P05".toList -- 435
  | .DuplicateSchemaError => some "42P06".toList -- 437
  | .DuplicateTableError => some "42P07".toList -- 439
  | .DuplicateAliasError => some "42712".toList -- 441
  | .DuplicateObjectError => some "42710".toList -- 443
  | .AmbiguousColumnError => some "42702".toList -- 448
  | .AmbiguousFunctionError => some "42725".toList -- 450
  | .AmbiguousParameterError => some "42P08".toList -- 452
  | .AmbiguousAliasError => some "42P09".toList -- 454
  | .ColumnReferenceError => some "42P10".toList -- 457
  | .ColumnDefinitionError => some "42611".toList -- 462
  | .CursorDefinitionError => some "42P11".toList -- 464
  | .DatabaseDefinitionError => some "42P12".toList -- 466
  | .FunctionDefinitionError => some "42P13".toList -- 468
  | .PreparedStatementDefinitionError => some "42P14".toList -- 470
  | .SchemaDefinitionError => some "42P15".toList -- 472
  | .TableDefinitionError => some "42P16".toList -- 474
  | .ObjectDefinitionError => some "42P17".toList -- 476
  | .CursorStateError => some "24000".toList -- 480
  | .WithCheckOptionError => some "44000".toList -- 483
  | .CatalogNameError => some "3D000".toList -- 488
  | .CursorNameError => some "34000".toList -- 490
  | .StatementNameError => some "26000".toList -- 492
  | .SchemaNameError => some "3F000".toList -- 494
  | .ICVError => some "23000".toList -- 497
  | .RestrictError => some "23001".toList -- 502
  | .NotNullError => some "23502".toList -- 504
  | .ForeignKeyError => some "23503".toList -- 506
  | .UniqueError => some "23505".toList -- 508
  | .CheckError => some "23514".toList -- 510
  | .DataError => some "22000".toList -- 514
  | .StringRightTruncationError => some "22001".toList -- 517
  | .StringDataLengthError => some "22026".toList -- 519
  | .ZeroLengthString => some "2200F".toList -- 521
  | .EncodingError => some "22021".toList -- 524
  | .ArrayElementError => some "2202E".toList -- 526
  | .SpecificTypeMismatch => some "2200G".toList -- 528
  | .NullValueNotAllowedError => some "22004".toList -- 531
  | .NullValueNoIndicatorParameter => some "22002".toList -- 533
  | .ZeroDivisionError => some "22012".toList -- 536
  | .FloatingPointError => some "22P01".toList -- 538
  | .AssignmentError => some "22005".toList -- 540
  | .IndicatorOverflowError => some "22022".toList -- 542
  | .BadCopyError => some "22P04".toList -- 544
  | .TextRepresentationError => some "22P02".toList -- 547
  | .BinaryRepresentationError => some "22P03".toList -- 549
  | .UntranslatableCharacterError => some "22P05".toList -- 551
  | .NonstandardUseOfEscapeCharacterError => some "22P06".toList -- 553
  | .NotXMLError => some "2200L".toList -- 556
  | .XMLDocumentError => some "2200M".toList -- 558
  | .XMLContentError => some "2200N".toList -- 560
  | .XMLCommentError => some "2200S".toList -- 562
  | .XMLProcessingInstructionError => some "2200T".toList -- 564
  | .DateTimeFormatError => some "22007".toList -- 567
  | .TimeZoneDisplacementValueError => some "22009".toList -- 569
  | .DateTimeFieldOverflowError => some "22008".toList -- 571
  | .IntervalFieldOverflowError => some "22015".toList -- 573
  | .LogArgumentError => some "2201E".toList -- 576
  | .PowerFunctionArgumentError => some "2201F".toList -- 578
  | .WidthBucketFunctionArgumentError => some "2201G".toList -- 580
  | .CastCharacterValueError => some "22018".toList -- 582
  | .EscapeCharacterError_old => some "22019".toList -- 585
  | .EscapeOctetError => some "2200D".toList -- 587
  | .EscapeSequenceError => some "22025".toList -- 589
  | .EscapeCharacterConflictError => some "2200B".toList -- 591
  | .EscapeCharacterError => some "2200C".toList -- 593
  | .SubstringError => some "22011".toList -- 599
  | .TrimError => some "22027".toList -- 601
  | .IndicatorParameterValueError => some "22010".toList -- 603
  | .LimitValueError => some "2201W".toList -- 606
  | .OffsetValueError => some "2201X".toList -- 609
  | .ParameterValueError => some "22023".toList -- 612
  | .RegularExpressionError => some "2201B".toList -- 614
  | .NumericRangeError => some "22003".toList -- 616
  | .UnterminatedCStringError => some "22024".toList -- 618
  | .InternalError => some "XX000".toList -- 622
  | .DataCorruptedError => some "XX001".toList -- 624
  | .IndexCorruptedError => some "XX002".toList -- 626
  | .SIOError => some "58000".toList -- 629
  | .UndefinedFileError => some "58P01".toList -- 634
  | .DuplicateFileError => some "58P02".toList -- 636
  | .CFError => some "F0000".toList -- 639
  | .LockFileExistsError => some "F0001".toList -- 644
  | .OIError => some "57000".toList -- 647
  | .QueryCanceledError => some "57014".toList -- 652
  | .AdminShutdownError => some "57P01".toList -- 654
  | .CrashShutdownError => some "57P02".toList -- 656
  | .ServerNotReadyError => some "57P03".toList -- 658
  | .PLPGSQLError => some "P0000".toList -- 664
  | .PLPGSQLRaiseError => some "P0001".toList -- 669
  | .PLPGSQLNoDataFoundError => some "P0002".toList -- 674
  | .PLPGSQLTooManyRowsError => some "P0003".toList -- 676
  | _ => none

/-- The `pg_code` in the body of a class statement (exceptions.py:606-608). -/
def ownPgCode : Cls → Option Str
  | .LimitValueError => some "22020".toList -- 606
  | _ => none

/-- The class statements of the module, in order (exceptions.py:37-676). -/
def statements : List Cls := [
  .Exception, .LoadError, .Disconnection, .Warning, .DriverWarning, .IgnoredClientParameterWarning, .TypeConversionWarning, .DeprecationWarning,
  .DynamicResultSetsReturnedWarning, .ImplicitZeroBitPaddingWarning, .NullValueEliminatedInSetFunctionWarning, .PrivilegeNotGrantedWarning,
  .PrivilegeNotRevokedWarning, .StringDataRightTruncationWarning, .NoDataWarning, .NoMoreSetsReturned, .Error, .DriverError,
  .AuthenticationMethodError, .InsecurityError, .ConnectTimeoutError, .TypeIOError, .ParameterError, .ColumnError, .CompositeError, .OperationError,
  .TransactionError, .SQLNotYetCompleteError, .ConnectionError, .ConnectionDoesNotExistError, .ConnectionFailureError, .ClientCannotConnectError,
  .ConnectionRejectionError, .TransactionResolutionUnknownError, .ProtocolError, .TriggeredActionError, .FeatureError, .TransactionInitiationError,
  .LocatorError, .LocatorSpecificationError, .GrantorError, .GrantorOperationError, .RoleSpecificationError, .CaseNotFoundError, .CardinalityError,
  .TriggeredDataChangeViolation, .AuthenticationSpecificationError, .DPDSEError, .DPDSEObjectError, .SREError,
  .FunctionExecutedNoReturnStatementError, .DataModificationProhibitedError, .StatementProhibitedError, .ReadingDataProhibitedError, .EREError,
  .ContainingSQLNotPermittedError, .ModifyingSQLDataNotPermittedError, .ProhibitedSQLStatementError, .ReadingSQLDataNotPermittedError, .ERIEError,
  .InvalidSQLState, .NullValueNotAllowed, .TriggerProtocolError, .SRFProtocolError, .TRError, .DeadlockError, .IntegrityConstraintViolationError,
  .SerializationError, .StatementCompletionUnknownError, .ITSError, .ActiveTransactionError, .BranchAlreadyActiveError, .BadAccessModeForBranchError,
  .BadIsolationForBranchError, .NoActiveTransactionForBranchError, .ReadOnlyTransactionError, .SchemaAndDataStatementsError,
  .InconsistentCursorIsolationError, .NoActiveTransactionError, .InFailedTransactionError, .SavepointError, .InvalidSavepointSpecificationError,
  .TransactionTerminationError, .IRError, .MemoryError, .DiskFullError, .TooManyConnectionsError, .PLEError, .ComplexityOverflowError,
  .ColumnOverflowError, .ArgumentOverflowError, .ONIPSError, .ObjectInUseError, .ImmutableRuntimeParameterError, .UnavailableLockError, .SEARVError,
  .SEARVNameError, .NameTooLongError, .ReservedNameError, .ForeignKeyCreationError, .InsufficientPrivilegeError, .GroupingError, .RecursionError,
  .WindowError, .SyntaxError, .TypeError, .CoercionError, .TypeMismatchError, .IndeterminateTypeError, .WrongObjectTypeError, .UndefinedError,
  .UndefinedColumnError, .UndefinedFunctionError, .UndefinedTableError, .UndefinedParameterError, .UndefinedObjectError, .DuplicateError,
  .DuplicateColumnError, .DuplicateCursorError, .DuplicateDatabaseError, .DuplicateFunctionError, .DuplicatePreparedStatementError,
  .DuplicateSchemaError, .DuplicateTableError, .DuplicateAliasError, .DuplicateObjectError, .AmbiguityError, .AmbiguousColumnError,
  .AmbiguousFunctionError, .AmbiguousParameterError, .AmbiguousAliasError, .ColumnReferenceError, .DefinitionError, .ColumnDefinitionError,
  .CursorDefinitionError, .DatabaseDefinitionError, .FunctionDefinitionError, .PreparedStatementDefinitionError, .SchemaDefinitionError,
  .TableDefinitionError, .ObjectDefinitionError, .CursorStateError, .WithCheckOptionError, .NameError, .CatalogNameError, .CursorNameError,
  .StatementNameError, .SchemaNameError, .ICVError, .RestrictError, .NotNullError, .ForeignKeyError, .UniqueError, .CheckError, .DataError,
  .StringRightTruncationError, .StringDataLengthError, .ZeroLengthString, .EncodingError, .ArrayElementError, .SpecificTypeMismatch,
  .NullValueNotAllowedError, .NullValueNoIndicatorParameter, .ZeroDivisionError, .FloatingPointError, .AssignmentError, .IndicatorOverflowError,
  .BadCopyError, .TextRepresentationError, .BinaryRepresentationError, .UntranslatableCharacterError, .NonstandardUseOfEscapeCharacterError,
  .NotXMLError, .XMLDocumentError, .XMLContentError, .XMLCommentError, .XMLProcessingInstructionError, .DateTimeFormatError,
  .TimeZoneDisplacementValueError, .DateTimeFieldOverflowError, .IntervalFieldOverflowError, .LogArgumentError, .PowerFunctionArgumentError,
  .WidthBucketFunctionArgumentError, .CastCharacterValueError, .EscapeCharacterError_old, .EscapeOctetError, .EscapeSequenceError,
  .EscapeCharacterConflictError, .EscapeCharacterError, .SubstringError, .TrimError, .IndicatorParameterValueError, .LimitValueError,
  .OffsetValueError, .ParameterValueError, .RegularExpressionError, .NumericRangeError, .UnterminatedCStringError, .InternalError,
  .DataCorruptedError, .IndexCorruptedError, .SIOError, .UndefinedFileError, .DuplicateFileError, .CFError, .LockFileExistsError, .OIError,
  .QueryCanceledError, .AdminShutdownError, .CrashShutdownError, .ServerNotReadyError, .PLPGSQLError, .PLPGSQLRaiseError, .PLPGSQLNoDataFoundError,
  .PLPGSQLTooManyRowsError]

/-- `issubclass(a, b)`: through at most `n` bases. -/
def subAt : Nat → Cls → Cls → Bool
  | 0, a, b => a = b
  | n + 1, a, b => a = b || (bases a).any fun x => subAt n x b

/-- `issubclass(a, b)`; no class stands under more than seven others in line. -/
def isSub (a b : Cls) : Bool := subAt 8 a b

/-- `getattr(c, name, None)`: the class's own attribute, or the one of its bases. (Python follows the method resolution order; all classes with
more than one base have a `code` of their own, so that the order does not matter.) -/
def attrAt (own : Cls → Option Str) : Nat → Cls → Option Str
  | 0, c => own c
  | n + 1, c => match own c with
    | some v => some v
    | none => (bases c).findSome? (attrAt own n)

/-- `getattr(c, 'code', None)`. -/
def code (c : Cls) : Option Str := attrAt ownCode 8 c
/-- `getattr(c, 'pg_code', None)`. -/
def pgCode (c : Cls) : Option Str := attrAt ownPgCode 8 c

/-- The name a class statement binds, as the class bound to it in the end. -/
def boundTo : Cls → Cls
  | .EscapeCharacterError_old => .EscapeCharacterError
  | c => c

/-- `sys.modules[__name__].__dict__` after the class statements (exceptions.py:733): a name that is bound again keeps its place.
Values that are not classes are left out. -/
def moduleDict : List (Cls × Cls) := (.Message :: .builtins_Exception :: statements).foldl (fun d c => PyDict.set (boundTo c) c d) []

/-- The two dictionaries of the module (exceptions.py:681-682). -/
structure Maps (C : Type) where
  errors : List (Str × C) := []
  warnings : List (Str × C) := []

/-- What `map_errors_and_warnings` asks of an object (exceptions.py:683-721). -/
structure View (C : Type) where
  /-- `issubclass(type(obj), (type(Warning), type(Error)))`: the metaclass of `Message`. -/
  ofMessage : C → Bool
  isError : C → Bool
  isWarning : C → Bool
  code : C → Option Str
  pgCode : C → Option Str
  sub : C → C → Bool

/-- One container's update (exceptions.py:711-721). -/
def place {C : Type} (V : View C) (obj : C) (k : Str) (container : List (Str × C)) : List (Str × C) :=
  let upd := fun (_ : Unit) =>
    let c := PyDict.set k obj container
    match V.pgCode obj with
    | some p => PyDict.set p obj c
    | none => c
  match PyDict.get k container with
  | none => upd ()
  | some cur => if V.sub cur obj then upd () else container

/-- The loop's body (exceptions.py:695-721). -/
def mapOne {C : Type} (V : View C) (m : Maps C) (obj : C) : Maps C :=
  if V.ofMessage obj then
    match V.code obj with
    | none => m
    | some k =>
      if V.isError obj then { m with errors := place V obj k m.errors }
      else if V.isWarning obj then { m with warnings := place V obj k m.warnings }
      else m
  else m

/-- `map_errors_and_warnings(objs)` (exceptions.py:683-721). -/
def mapAll {C : Type} (V : View C) (objs : List C) : Maps C := objs.foldl (mapOne V) {}

/-- The module's classes. -/
def view : View Cls where
  ofMessage c := isSub c .Message
  isError c := isSub c .Error
  isWarning c := isSub c .Warning
  code := code
  pgCode := pgCode
  sub := isSub

/-- `code_to_error`, `code_to_warning` (exceptions.py:733). -/
def maps : Maps Cls := mapAll view (moduleDict.map Prod.snd)

/-- `code_lookup(default, container, code)` (exceptions.py:723-731). -/
def codeLookup {C : Type} (default : C) (container : List (Str × C)) (code : Str) : C :=
  match PyDict.get code container with
  | some obj => obj
  | none => (PyDict.get (code.take 2 ++ "000".toList) container).getD default

/-- `ErrorLookup(code)` (exceptions.py:734). -/
def errorLookup (code : Str) : Cls := codeLookup .Error maps.errors code

/-- `WarningLookup(code)` (exceptions.py:735). -/
def warningLookup (code : Str) : Cls := codeLookup .Warning maps.warnings code

end PG.Exceptions

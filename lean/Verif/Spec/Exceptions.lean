import Verif.Model.Exceptions
/-!
# Which class an SQL state should be raised as

The documentation (exceptions.py:8-29): the class of the exact code; else the one of the code's class, which the first two characters name; else the base class.
-/
namespace PG.Spec.Exceptions
open PG PG.Exceptions

/-- `a` is `b`, or is made from it: there is a line of class statements from the one to the other. -/
inductive Sub : Cls → Cls → Prop
  | refl (a : Cls) : Sub a a
  | step {a b c : Cls} (h : b ∈ bases a) (t : Sub b c) : Sub a c

/-- The class statement of `c` names the code, for itself or for older servers. -/
def Declares (c : Cls) (code : Str) : Prop := c ∈ statements ∧ (ownCode c = some code ∨ ownPgCode c = some code)

/-- The code of the class of a code. -/
def classCode (code : Str) : Str := code.take 2 ++ "000".toList

/-- The class for a code, of the classes that satisfy `P`, with `base` for the rest. -/
inductive Appropriate (P : Cls → Prop) (base : Cls) (code : Str) : Cls → Prop
  | exact {c : Cls} (hc : Declares c code) (hp : P c) : Appropriate P base code c
  | general {c : Cls} (hn : ∀ c, P c → ¬ Declares c code) (hc : Declares c (classCode code)) (hp : P c) : Appropriate P base code c
  | base (hn : ∀ c, P c → ¬ Declares c code) (hn' : ∀ c, P c → ¬ Declares c (classCode code)) : Appropriate P base code base

/-- The classes of errors: all but warnings. -/
def IsError (c : Cls) : Prop := ¬ Sub c .Warning

def IsWarning (c : Cls) : Prop := Sub c .Warning

/-- SQL states and names of conditions as PostgreSQL's documentation has them (appendix A, "PostgreSQL Error Codes"), and the class a user catches them with; the last ones are newer than the
library, and caught with the class of their class, or with `Error`. -/
def standard : List (String × String × Cls) := [
  ("08000", "connection_exception", .ConnectionError),
  ("08003", "connection_does_not_exist", .ConnectionDoesNotExistError),
  ("08006", "connection_failure", .ConnectionFailureError),
  ("08001", "sqlclient_unable_to_establish_sqlconnection", .ClientCannotConnectError),
  ("08004", "sqlserver_rejected_establishment_of_sqlconnection", .ConnectionRejectionError),
  ("08P01", "protocol_violation", .ProtocolError),
  ("0A000", "feature_not_supported", .FeatureError),
  ("21000", "cardinality_violation", .CardinalityError),
  ("22000", "data_exception", .DataError),
  ("2202E", "array_subscript_error", .ArrayElementError),
  ("22021", "character_not_in_repertoire", .EncodingError),
  ("22008", "datetime_field_overflow", .DateTimeFieldOverflowError),
  ("22012", "division_by_zero", .ZeroDivisionError),
  ("2200D", "invalid_escape_octet", .EscapeOctetError),
  ("22025", "invalid_escape_sequence", .EscapeSequenceError),
  ("2201B", "invalid_regular_expression", .RegularExpressionError),
  ("22004", "null_value_not_allowed", .NullValueNotAllowedError),
  ("22003", "numeric_value_out_of_range", .NumericRangeError),
  ("22001", "string_data_right_truncation", .StringRightTruncationError),
  ("22023", "invalid_parameter_value", .ParameterValueError),
  ("22007", "invalid_datetime_format", .DateTimeFormatError),
  ("22P02", "invalid_text_representation", .TextRepresentationError),
  ("22P03", "invalid_binary_representation", .BinaryRepresentationError),
  ("22P04", "bad_copy_file_format", .BadCopyError),
  ("23000", "integrity_constraint_violation", .ICVError),
  ("23001", "restrict_violation", .RestrictError),
  ("23502", "not_null_violation", .NotNullError),
  ("23503", "foreign_key_violation", .ForeignKeyError),
  ("23505", "unique_violation", .UniqueError),
  ("23514", "check_violation", .CheckError),
  ("24000", "invalid_cursor_state", .CursorStateError),
  ("25000", "invalid_transaction_state", .ITSError),
  ("25001", "active_sql_transaction", .ActiveTransactionError),
  ("25006", "read_only_sql_transaction", .ReadOnlyTransactionError),
  ("25P01", "no_active_sql_transaction", .NoActiveTransactionError),
  ("25P02", "in_failed_sql_transaction", .InFailedTransactionError),
  ("26000", "invalid_sql_statement_name", .StatementNameError),
  ("28000", "invalid_authorization_specification", .AuthenticationSpecificationError),
  ("2BP01", "dependent_objects_still_exist", .DPDSEObjectError),
  ("34000", "invalid_cursor_name", .CursorNameError),
  ("3B001", "invalid_savepoint_specification", .InvalidSavepointSpecificationError),
  ("3D000", "invalid_catalog_name", .CatalogNameError),
  ("3F000", "invalid_schema_name", .SchemaNameError),
  ("40000", "transaction_rollback", .TRError),
  ("40001", "serialization_failure", .SerializationError),
  ("40002", "transaction_integrity_constraint_violation", .IntegrityConstraintViolationError),
  ("40003", "statement_completion_unknown", .StatementCompletionUnknownError),
  ("40P01", "deadlock_detected", .DeadlockError),
  ("42000", "syntax_error_or_access_rule_violation", .SEARVError),
  ("42601", "syntax_error", .SyntaxError),
  ("42501", "insufficient_privilege", .InsufficientPrivilegeError),
  ("42803", "grouping_error", .GroupingError),
  ("42804", "datatype_mismatch", .TypeMismatchError),
  ("42809", "wrong_object_type", .WrongObjectTypeError),
  ("42703", "undefined_column", .UndefinedColumnError),
  ("42883", "undefined_function", .UndefinedFunctionError),
  ("42P01", "undefined_table", .UndefinedTableError),
  ("42P02", "undefined_parameter", .UndefinedParameterError),
  ("42704", "undefined_object", .UndefinedObjectError),
  ("42701", "duplicate_column", .DuplicateColumnError),
  ("42P03", "duplicate_cursor", .DuplicateCursorError),
  ("42P04", "duplicate_database", .DuplicateDatabaseError),
  ("42723", "duplicate_function", .DuplicateFunctionError),
  ("42P05", "duplicate_prepared_statement", .DuplicatePreparedStatementError),
  ("42P06", "duplicate_schema", .DuplicateSchemaError),
  ("42P07", "duplicate_table", .DuplicateTableError),
  ("42712", "duplicate_alias", .DuplicateAliasError),
  ("42710", "duplicate_object", .DuplicateObjectError),
  ("42702", "ambiguous_column", .AmbiguousColumnError),
  ("42725", "ambiguous_function", .AmbiguousFunctionError),
  ("44000", "with_check_option_violation", .WithCheckOptionError),
  ("53000", "insufficient_resources", .IRError),
  ("53100", "disk_full", .DiskFullError),
  ("53200", "out_of_memory", .MemoryError),
  ("53300", "too_many_connections", .TooManyConnectionsError),
  ("55006", "object_in_use", .ObjectInUseError),
  ("55P03", "lock_not_available", .UnavailableLockError),
  ("57014", "query_canceled", .QueryCanceledError),
  ("57P01", "admin_shutdown", .AdminShutdownError),
  ("57P02", "crash_shutdown", .CrashShutdownError),
  ("57P03", "cannot_connect_now", .ServerNotReadyError),
  ("58000", "system_error", .SIOError),
  ("58P01", "undefined_file", .UndefinedFileError),
  ("F0000", "config_file_error", .CFError),
  ("P0000", "plpgsql_error", .PLPGSQLError),
  ("P0001", "raise_exception", .PLPGSQLRaiseError),
  ("P0002", "no_data_found", .PLPGSQLNoDataFoundError),
  ("P0003", "too_many_rows", .PLPGSQLTooManyRowsError),
  ("XX000", "internal_error", .InternalError),
  ("XX001", "data_corrupted", .DataCorruptedError),
  ("XX002", "index_corrupted", .IndexCorruptedError),
  ("28P01", "invalid_password", .AuthenticationSpecificationError),
  ("23P01", "exclusion_violation", .ICVError),
  ("53400", "configuration_limit_exceeded", .IRError),
  ("57P04", "database_dropped", .OIError),
  ("42P21", "collation_mismatch", .SEARVError),
  ("HV000", "fdw_error", .Error)]

end PG.Spec.Exceptions

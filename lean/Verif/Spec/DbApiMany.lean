/-!
# What the DB-API (PEP 249) asks of types

Nothing here refers to the model of `postgresql/driver/dbapi20.py`.
-/
namespace PG.Spec.DbApiMany

/-- The kinds of columns PEP 249 tells apart. -/
inductive Kind where
  | string | binary | number | datetime | rowid
  deriving DecidableEq

/-- The kinds of PostgreSQL's types (numbers from pg_type.dat): text, "char", character varying, name, cstring, character; bytea; bigint, smallint, integer, real, double precision,
numeric; timestamps, date, times, interval; oid. -/
def kindOf : List (Nat × Kind) :=
  [(25, .string), (18, .string), (1043, .string), (19, .string), (2275, .string), (1042, .string), (17, .binary),
   (20, .number), (21, .number), (23, .number), (700, .number), (701, .number), (1700, .number),
   (1114, .datetime), (1184, .datetime), (1082, .datetime), (1083, .datetime), (1266, .datetime), (1186, .datetime), (26, .rowid)]

end PG.Spec.DbApiMany

/-! Model of the conversion of dates, timestamps and intervals between Postgres and Python (postbound/postgres.py:524-629).
Points in time are counted in days or microseconds; the texts of finite values and the conversion of the library for values within the
range of Python are not modelled. -/

namespace PB.PgDates

/-- A value of Postgres: finite values are counted from some point in time. -/
inductive Pg where
  | minusInf
  | fin (n : Int)
  | inf
deriving DecidableEq

/-- The range of Python. -/
structure Range where
  lo : Int
  hi : Int

/-- A Python value: `datetime.date`, `datetime.datetime` or `datetime.timedelta`; `aware` tells whether there is a time zone (the
values are instants then). -/
structure Py where
  n : Int
  aware : Bool
deriving DecidableEq

/-- The result of a loader. -/
inductive Loaded where
  | val (p : Py)
  /-- `DataError`: before the first year -/
  | tooSmall
  /-- `DataError`: after the last year -/
  | tooLarge
deriving DecidableEq

/-- The loaders of psycopg (`super().load`) for finite values; they reject infinite values, which do not reach them here. -/
def baseLoad (r : Range) (aware : Bool) (n : Int) : Loaded :=
  if n < r.lo then .tooSmall else if n > r.hi then .tooLarge else .val ⟨n, aware⟩

/-- The handler of the `DataError` (postbound/postgres.py:555-561, 583-589, 611-617). -/
def clamp (r : Range) (aware : Bool) : Loaded → Loaded
  | .tooLarge => .val ⟨r.hi, aware⟩
  | x => x

/-- `_PsycopgDateLoader.load` and `_PsycopgTimestampLoader.load` (postbound/postgres.py:546-561, 574-589) without a time zone,
`_PsycopgTimestampTzLoader.load` (postbound/postgres.py:602-617) with one. -/
def load (r : Range) (aware : Bool) : Pg → Loaded
  | .inf => .val ⟨r.hi, aware⟩
  | .minusInf => .val ⟨r.lo, aware⟩
  | .fin n => clamp r aware (baseLoad r aware n)

/-- `obj == datetime.max` and the like: values with a time zone never equal values without one. -/
def pyEq (p : Py) (n : Int) : Bool := !p.aware && p.n = n

/-- `_PsycopgDateDumper.dump`, `_PsycopgTimestampDumper.dump` and `_PsycopgTimestampTzDumper.dump` (postbound/postgres.py:536-543,
564-571, 592-599). -/
def dump (r : Range) (p : Py) : Pg := if pyEq p r.hi then .inf else if pyEq p r.lo then .minusInf else .fin p.n

/-- `_PsycopgIntervalLoader.load` (postbound/postgres.py:620-628). -/
def loadInterval (r : Range) : Pg → Loaded
  | .inf => .val ⟨r.hi, false⟩
  | .minusInf => .val ⟨r.lo, false⟩
  | .fin n => baseLoad r false n

/-- Intervals are sent by the dumper of psycopg. -/
def dumpInterval (p : Py) : Pg := .fin p.n

end PB.PgDates

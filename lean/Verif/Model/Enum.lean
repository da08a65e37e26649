/-! # Flags, statuses and actions (/repo/diffsync/enum.py) -/

namespace DS

/-- `bool(flags & mask)` on `enum.Flag` values, which are integers
(e.g. /repo/diffsync/helpers.py:187, 195, 371). -/
def flagOn (flags mask : Nat) : Bool := (flags &&& mask) != 0

/-! `DiffSyncModelFlags`, /repo/diffsync/enum.py:21-57 -/
namespace MF
/-- enum.py:24 -/ def NONE : Nat := 0
/-- enum.py:26 -/ def IGNORE : Nat := 0b1
/-- enum.py:32 -/ def SKIP_CHILDREN_ON_DELETE : Nat := 0b10
/-- enum.py:38 -/ def SKIP_UNMATCHED_SRC : Nat := 0b100
/-- enum.py:44 -/ def SKIP_UNMATCHED_DST : Nat := 0b1000
/-- enum.py:50 -/ def NATURAL_DELETION_ORDER : Nat := 0b10000
/-- enum.py:57 -/ def SKIP_UNMATCHED_BOTH : Nat := SKIP_UNMATCHED_SRC ||| SKIP_UNMATCHED_DST
end MF

/-! `DiffSyncFlags`, /repo/diffsync/enum.py:60-87 -/
namespace GF
/-- enum.py:63 -/ def NONE : Nat := 0
/-- enum.py:65 -/ def CONTINUE_ON_FAILURE : Nat := 0b1
/-- enum.py:68 -/ def SKIP_UNMATCHED_SRC : Nat := 0b10
/-- enum.py:74 -/ def SKIP_UNMATCHED_DST : Nat := 0b100
/-- enum.py:80 -/ def SKIP_UNMATCHED_BOTH : Nat := SKIP_UNMATCHED_SRC ||| SKIP_UNMATCHED_DST
/-- enum.py:82 -/ def LOG_UNCHANGED_RECORDS : Nat := 0b1000
end GF

/-- `DiffSyncStatus`, /repo/diffsync/enum.py:90-96. -/
inductive Status where
  | unknown | success | failure | error
  deriving DecidableEq, Repr

/-- The actions `create`/`update`/`delete` of `DiffSyncActions`, /repo/diffsync/enum.py:99-106.
`NO_CHANGE = None` is `none : Option Action`; `"skip"` is only a summary key. -/
inductive Action where
  | create | update | delete
  deriving DecidableEq, Repr

end DS

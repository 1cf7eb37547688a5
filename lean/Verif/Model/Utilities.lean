import Mathlib.Data.Real.Basic
import Mathlib.Algebra.Order.Floor.Semiring
import Mathlib.Algebra.Order.Archimedean.Real.Basic

/-!
# Model of the file comparison and of the convergence log

A file system is a partial map from names to byte strings (`none`: the stream could not be
opened).  Directories, devices and concurrent writers are not modelled.  Numbers of the log
are `ℝ`; the decimal rounding to six digits and the padding are not modelled.
-/

namespace Verif.Util

/-! ## files_are_identical -/

/-- `std::equal(first1, last1, first2)` over stream-buffer iterators: the second range must be
at least as long as the first, otherwise the behaviour is undefined (`none`). -/
def equal3 : List UInt8 → List UInt8 → Option Bool
  | [], _ => some true
  | _ :: _, [] => none
  | a :: as, b :: bs => if a = b then equal3 as bs else some false

/-- `files_are_identical` (`source/utilities.cc:196-228`); the outer `none` is undefined
behaviour.  The streams are opened at their ends, so `tellg` is the size. -/
def filesAreIdentical (fs : String → Option (List UInt8)) (first second : String) :
    Option Bool :=
  match fs first, fs second with
  | some a, some b => if a.length ≠ b.length then some false else equal3 a b
  | _, _ => some false

/-! ## Logger -/

/-- `Logger::Format` (`include/gCP/utilities.h:118-122`). -/
inductive Format where
  | integer | decimal | scientific
  deriving DecidableEq

/-- One printed field. -/
inductive Field where
  | integer (n : ℕ)
  | decimal (x : ℝ)
  | scientific (x : ℝ)

/-- The members of `Logger` (`include/gCP/utilities.h:140-147`). -/
structure Logger where
  data : String → Option (ℝ × Format)
  keys : List String

/-- A new logger (`source/utilities.cc:231-236`). -/
def Logger.new : Logger := ⟨fun _ => none, []⟩

/-- `std::map::operator[]` followed by a write of the first component: a missing entry is
value-initialised, `Format` to its first enumerator. -/
noncomputable def Logger.put (l : Logger) (c : String) (v : ℝ) : Logger :=
  { l with data := fun d => if d = c then some (v, ((l.data c).getD (0, .integer)).2) else l.data d }

/-- `declare_column` (`source/utilities.cc:240-254`): `none` is the exception. -/
def Logger.declare (l : Logger) (c : String) (f : Format) : Option Logger :=
  if (l.data c).isSome then none
  else some ⟨fun d => if d = c then some (0, f) else l.data d, l.keys ++ [c]⟩

/-- `update_value` (`source/utilities.cc:258-264`).  `AssertIsFinite` is void here: the
numbers of the model are finite. -/
noncomputable def Logger.update (l : Logger) (c : String) (v : ℝ) : Logger := l.put c v

/-- The conversion `(unsigned int)value`: truncation, undefined behaviour (`none`) if the
truncated value is not representable. -/
noncomputable def toUnsigned (v : ℝ) : Option ℕ :=
  open Classical in if -1 < v ∧ v < 2 ^ 32 then some ⌊v⌋₊ else none

/-- The switch over the format (`source/utilities.cc:281-300`). -/
noncomputable def field (v : ℝ) : Format → Option Field
  | .integer => (toUnsigned v).map .integer
  | .decimal => some (.decimal v)
  | .scientific => some (.scientific v)

/-- `log_to_file` (`source/utilities.cc:268-307`): the fields of the line in the order they
are printed, `none` for undefined behaviour.  `data_map[key]` of a missing key would create
an entry; no reachable logger has a key without entry (`keys_have_data`). -/
noncomputable def Logger.line (l : Logger) : Option (List Field) :=
  l.keys.mapM fun k =>
    let e := (l.data k).getD (0, .integer)
    field e.1 e.2

/-- The column titles printed by `add_break` and `log_headers_to_terminal`
(`source/utilities.cc:311-328, 385-396`). -/
def Logger.headers (l : Logger) : List String := l.keys

/-- A call on the logger. -/
inductive Call where
  | declare (c : String) (f : Format)
  | update (c : String) (v : ℝ)

/-- The logger after one call; a rejected call leaves it as it was. -/
noncomputable def Logger.step (l : Logger) : Call → Logger
  | .declare c f => (l.declare c f).getD l
  | .update c v => l.update c v

/-- The logger after a history of calls. -/
noncomputable def after (h : List Call) : Logger := h.foldl Logger.step .new

end Verif.Util

import Verif.Py

/-!
# The interface of bound distance generators (`distancematrix/generator/abstract_generator.py`)
-/

namespace Verif

/-- The methods of a bound generator; `G` is its state. -/
structure GenOps (G K : Type) where
  /-- `calc_diagonal`, abstract_generator.py:36-48 -/
  calcDiagonal : G → Int → Except PyErr (G × List (Fl K))
  /-- `calc_column`, abstract_generator.py:50-58 -/
  calcColumn : G → Int → Except PyErr (G × List (Fl K))
  /-- `append_series`, abstract_generator.py:62-70 -/
  appendSeries : G → List (Fl K) → Except PyErr G
  /-- `append_query`, abstract_generator.py:72-79 -/
  appendQuery : G → List (Fl K) → Except PyErr G

end Verif

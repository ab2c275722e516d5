import Verif.Py
import Mathlib.Data.Finset.Sort

/-!
# Model of the time arithmetic of `Parser.__init__` and of `Parser.get_time_intervals`

`fl` rounds the exact result of every floating point operation (`id` for exact arithmetic).
-/

namespace Kinisi
variable {K : Type} [Field K] [LinearOrder K] [IsStrictOrderedRing K] [FloorRing K]

/-- A Python number: the code distinguishes `int` and `float` only through numpy's type promotion. -/
inductive PyNum (K : Type) where
  | int (z : ℤ)
  | float (x : K)

/-- Numeric value. -/
def PyNum.val : PyNum K → K
  | .int z => (z : K)
  | .float x => x

/-- Is it a Python `int`? -/
def PyNum.isInt {K : Type} : PyNum K → Bool
  | .int _ => true
  | .float _ => false

/-- Product of two Python numbers: `int * int` is exact, otherwise a rounded float product. -/
def PyNum.mul (fl : K → K) : PyNum K → PyNum K → PyNum K
  | .int a, .int b => .int (a * b)
  | a, b => .float (fl (a.val * b.val))

/-- `int(x / (self.step_skip * self.time_step))`.  kinisi/parser.py:84, 159, 160. -/
def stepsOf (fl : K → K) (timeStep stepSkip : PyNum K) (x : K) : PyM ℤ :=
  let d := (stepSkip.mul fl timeStep).val
  if d = 0 then .error .zeroDivisionError else .ok (pyInt (fl (x / d)))

/-- `np.linspace(start, stop, num, dtype=int)` for Python ints (numpy 2): `arange(num)*step + start`, last element set
to `stop`, then `floor`.  Used at kinisi/parser.py:164.  `step` is zero only when `start = stop`. -/
def linspaceInt (fl : K → K) (start stop num : ℤ) : PyM (List ℤ) :=
  if num < 0 then .error .valueError
  else
    let n := num.toNat
    let step := fl (((stop - start : ℤ) : K) / ((n : K) - 1))
    .ok ((List.range n).map fun i =>
      if 1 < n ∧ i = n - 1 then stop
      else if n = 1 then start
      else ⌊fl (fl ((i : K) * step) + (start : K))⌋)

/-- `np.geomspace(start, stop, num, dtype=int)`: the interior points `geo start stop num i` come from `logspace`, the end
points are overwritten with `start` and `stop`; conversion to int truncates.  Used at kinisi/parser.py:166. -/
def geomspaceInt (geo : ℤ → ℤ → ℕ → ℕ → K) (start stop num : ℤ) : PyM (List ℤ) :=
  if start = 0 ∨ stop = 0 then .error .valueError
  else if num < 0 then .error .valueError
  else
    let n := num.toNat
    .ok ((List.range n).map fun i =>
      if 1 < n ∧ i = n - 1 then stop else if i = 0 then start else pyInt (geo start stop n i))

/-- `np.unique`: sorted without repetitions. -/
def npUnique (l : List ℤ) : List ℤ := l.toFinset.sort (· ≤ ·)

/-- `Parser.get_time_intervals`.  kinisi/parser.py:150-168. -/
def getTimeIntervals (fl : K → K) (geo : ℤ → ℤ → ℕ → ℕ → K) (timeStep stepSkip : PyNum K) (minDt maxDt : K) (nSteps : ℤ)
    (spacing : String) : PyM (List ℤ) := do
  let mn ← stepsOf fl timeStep stepSkip minDt
  let mx ← stepsOf fl timeStep stepSkip maxDt
  let mn := if mn = 0 then 1 else mn
  if spacing = "linear" then linspaceInt fl mn mx nSteps
  else if spacing = "logarithmic" then (geomspaceInt geo mn mx nSteps).map npUnique
  else .error .valueError

/-- `self.max_dt` after defaulting.  kinisi/parser.py:80-81. -/
def maxDtOf (fl : K → K) (T : ℕ) (timeStep stepSkip : PyNum K) : Option K → K
  | none => (PyNum.mul fl (.int T) (stepSkip.mul fl timeStep)).val
  | some x => x

/-- `self.min_dt` after defaulting.  kinisi/parser.py:82-83. -/
def minDtOf (fl : K → K) (timeStep stepSkip : PyNum K) : Option K → K
  | none => (stepSkip.mul fl timeStep).val
  | some x => x

/-- The part of `Parser.__init__` between drift correction and `get_disps`, for `T = drift_corrected.shape[1]` steps.
kinisi/parser.py:80-90.  Returns the time intervals. -/
def initTimeIntervals (fl : K → K) (geo : ℤ → ℤ → ℕ → ℕ → K) (T : ℕ) (timeStep stepSkip : PyNum K)
    (minDt maxDt : Option K) (nSteps : ℤ) (spacing : String) : PyM (List ℤ) := do
  let maxDt := maxDtOf fl T timeStep stepSkip maxDt
  let minDt := minDtOf fl timeStep stepSkip minDt
  let minDtInt ← stepsOf fl timeStep stepSkip minDt
  if minDtInt ≥ T then .error .valueError
  else
    let nSteps := if nSteps > ((T : ℤ) - minDtInt) + 1 then ((T : ℤ) - minDtInt) + 1 else nSteps
    getTimeIntervals fl geo timeStep stepSkip minDt maxDt nSteps spacing

end Kinisi

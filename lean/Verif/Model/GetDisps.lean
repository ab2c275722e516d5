import Verif.Model.TimeGrid

/-!
# Model of `Parser.get_disps`
-/

namespace Kinisi
variable {K : Type} [Field K] [LinearOrder K] [IsStrictOrderedRing K] [FloorRing K]

/-- What `get_disps` returns: `delta_t`, `disp_3d`, `n_samples`. -/
structure DispsOut (K : Type) where
  deltaT : List K
  disp3d : List (Arr3 K)
  nO : List K

/-- `delta_t[i] = time_interval * self.time_step * self.step_skip` (left to right).  kinisi/parser.py:183. -/
def deltaTOf (fl : K → K) (timeStep stepSkip : PyNum K) (τ : ℤ) : PyNum K :=
  ((PyNum.int τ).mul fl timeStep).mul fl stepSkip

/-- Bytes counted for one interval: `np.prod(dc[indices, τ::].shape)*itemsize + len(indices)*3*itemsize`.
kinisi/parser.py:193-194. -/
def intervalBytes (itemsize n T : ℕ) (τ : ℤ) : ℕ :=
  (n * (T - sliceBound T τ) * 3) * itemsize + (n * 3) * itemsize

/-- `disp` for `sampling='single-origin'`: `drift_corrected[self.indices, i:i + 1]`, `i` being the loop counter.
kinisi/parser.py:203. -/
def singleOrigin (dc : Arr3 K) (rows : List ℕ) (i : ℕ) : Arr3 K :=
  { n0 := rows.length
    n1 := sliceBound dc.n1 (i + 1) - sliceBound dc.n1 i
    get := fun r k => dc.get (rows.getD r 0) (i + k) }

/-- `disp` for `sampling='multi-origin'`.  kinisi/parser.py:208-213.  The two slices have equal lengths unless `τ = 0`,
where numpy cannot subtract them (ValueError; for `T = 1` it can, but then line 214 raises the same error). -/
def multiOrigin (dc : Arr3 K) (rows : List ℕ) (τ : ℤ) : PyM (Arr3 K) := do
  let first ← npIdx dc.n1 (τ - 1)
  let lo := sliceBound dc.n1 τ
  let hi := sliceBound dc.n1 (-τ)
  if dc.n1 - lo ≠ hi then .error .valueError
  else
    .ok { n0 := rows.length
          n1 := 1 + hi
          get := fun r k =>
            let row := rows.getD r 0
            if k = 0 then dc.get row first
            else fun l => dc.get row (lo + (k - 1)) l - dc.get row (k - 1) l }

/-- Body of the sampling loop, for interval `τ` at loop counter `i`; `none` is `continue`.
kinisi/parser.py:201-221.  `disp[:, ::τ]` raises ValueError for a zero step. -/
def oneInterval (fl : K → K) (idx : List ℤ) (sampling : String) (last : ℤ) (dc : Arr3 K) (p : ℤ × ℕ) :
    PyM (Option (Arr3 K × K)) := do
  let τ := p.1
  let rows ← idx.mapM (npIdx dc.n0)
  let disp ←
    if sampling = "single-origin" then .ok (singleOrigin dc rows p.2)
    else if sampling = "multi-origin" then multiOrigin dc rows τ
    else .error .valueError
  if τ = 0 then .error .valueError
  else if disp.n0 * strideCount disp.n1 τ ≤ 1 then .ok none
  else .ok (some (disp, fl ((((disp.n0 : ℤ) * last : ℤ) : K) / (τ : K))))

/-- The loop over the intervals at kinisi/parser.py:192-194 evaluates `drift_corrected[self.indices, ...]`: IndexError for a
row that does not exist, unless there is no interval. -/
def checkRows (intervals : List ℤ) (idx : List ℤ) (n0 : ℕ) : PyM (List ℕ) :=
  if intervals.length = 0 then .ok [] else idx.mapM (npIdx n0)

/-- `Parser.get_disps`.  kinisi/parser.py:170-222.  `itemsize` is the size of a matrix element in bytes, `giga` the
constant `1e-9`. -/
def getDisps (fl : K → K) (giga : K) (itemsize : ℕ) (timeStep stepSkip : PyNum K) (idx : List ℤ) (sampling : String)
    (memoryLimit : K) (intervals : List ℤ) (dc : Arr3 K) : PyM (DispsOut K) := do
  let deltaT := intervals.map fun τ => (deltaTOf fl timeStep stepSkip τ).val
  let _ ← checkRows intervals idx dc.n0
  let bytes : ℕ := (intervals.map fun τ => intervalBytes itemsize idx.length dc.n1 τ).sum
  if fl ((bytes : K) * giga) > memoryLimit then .error .memoryError
  else do
    let r ← intervals.zipIdx.mapM (oneInterval fl idx sampling (intervals.getLastD 0) dc)
    let kept := r.filterMap id
    .ok { deltaT := deltaT, disp3d := kept.map Prod.fst, nO := kept.map Prod.snd }

end Kinisi

import Verif.Model.DispFl
import Verif.Model.Observables

/-!
# The way from coordinates to the MSD with rounding after every floating point operation

The same code as in `Model/Disp` (`correctDrift`), `Model/GetDisps` (`multiOrigin`), `Model/Observables` (`dSquared`, `npMean`), with `fl`
applied to the result of each operation (`fl = id` gives back those definitions, see `Lemmas/MsdFl`).  numpy adds in an order that depends on
shape and memory layout (pairwise, in blocks): `ord n` is the order in which `n` numbers are added, arbitrary here.
-/

namespace Kinisi

/-- An order of additions: a bracketing of the entries named at the leaves. -/
inductive SumOrder
  | leaf (i : ℕ)
  | add (a b : SumOrder)

/-- The entries that are added. -/
def SumOrder.leaves : SumOrder → List ℕ
  | .leaf i => [i]
  | .add a b => a.leaves ++ b.leaves

/-- The largest number of additions that an entry takes part in. -/
def SumOrder.depth : SumOrder → ℕ
  | .leaf _ => 0
  | .add a b => max a.depth b.depth + 1

variable {K : Type} [Field K] [LinearOrder K] [IsStrictOrderedRing K] [FloorRing K]

/-- The rounded sum of the entries `x i` in the given order. -/
def SumOrder.eval (fl : K → K) (x : ℕ → K) : SumOrder → K
  | .leaf i => x i
  | .add a b => fl (a.eval fl x + b.eval fl x)

/-- `np.sum` of a list that is not empty. -/
def sumFl (fl : K → K) (ord : ℕ → SumOrder) (l : List K) : K := (ord l.length).eval fl fun i => l.getD i 0

/-- `np.mean` (also `np.average` without weights); as `npMean`. -/
def meanFl (fl : K → K) (ord : ℕ → SumOrder) (l : List K) : Option K :=
  if l.length = 0 then none else some (fl (sumFl fl ord l / l.length))

/-- `Parser.correct_drift`.  kinisi/parser.py:132-148. -/
def correctDriftFl (fl : K → K) (ord : ℕ → SumOrder) (drift : List ℤ) (disp : Arr3 K) : PyM (Arr3 K) :=
  if drift.length > 0 then do
    let rows ← drift.mapM (npIdx disp.n0)
    .ok { disp with
      get := fun i j l => fl (disp.get i j l - fl (sumFl fl ord (rows.map fun r => disp.get r j l) / rows.length)) }
  else .ok disp

/-- `disp` for `sampling='multi-origin'`.  kinisi/parser.py:208-213. -/
def multiOriginFl (fl : K → K) (dc : Arr3 K) (rows : List ℕ) (τ : ℤ) : PyM (Arr3 K) := do
  let first ← npIdx dc.n1 (τ - 1)
  let lo := sliceBound dc.n1 τ
  let hi := sliceBound dc.n1 (-τ)
  if dc.n1 - lo ≠ hi then .error .valueError
  else
    .ok { n0 := rows.length
          n1 := 1 + hi
          get := fun r k =>
            let row := rows.getD r 0
            if k = 0 then dc.get row first
            else fun l => fl (dc.get row (lo + (k - 1)) l - dc.get row (k - 1) l) }

/-- `np.sum(disp_slice**2, axis=-1).flatten()`.  kinisi/diffusion.py:572-574. -/
def dSquaredFl (fl : K → K) (ord : ℕ → SumOrder) (axes : List (Fin 3)) (a : Arr3 K) : List K :=
  (List.range a.n0).flatMap fun i => (List.range a.n1).map fun k => sumFl fl ord (axes.map fun x => fl (a.get i k x ^ 2))

/-- `coll_motion`.  kinisi/diffusion.py:660. -/
def collMotionFl (fl : K → K) (ord : ℕ → SumOrder) (axes : List (Fin 3)) (a : Arr3 K) : List K :=
  (List.range a.n1).map fun k => sumFl fl ord (axes.map fun x => fl (sumFl fl ord ((List.range a.n0).map fun i => a.get i k x) ^ 2))

/-- `np.sum((ionic_charge * disp.T).T, axis=0)` for one observation and axis; branches as in `chargeSum`. -/
def chargeSumFl (fl : K → K) (ord : ℕ → SumOrder) (q : List K) (a : Arr3 K) (k : ℕ) (x : Fin 3) : PyM K :=
  if q.length = a.n0 then .ok (sumFl fl ord ((List.range a.n0).map fun i => fl (q.getD i 0 * a.get i k x)))
  else if q.length = 1 then .ok (sumFl fl ord ((List.range a.n0).map fun i => fl (q.getD 0 0 * a.get i k x)))
  else if a.n0 = 1 then .ok (sumFl fl ord (q.map fun c => fl (c * a.get 0 k x)))
  else .error .valueError

/-- `sq_chg_motion`.  kinisi/diffusion.py:755. -/
def chgMotionFl (fl : K → K) (ord : ℕ → SumOrder) (q : List K) (a : Arr3 K) : PyM (List K) :=
  if q.length = a.n0 ∨ q.length = 1 ∨ a.n0 = 1 then
    (List.range a.n1).mapM fun k => do
      let v ← (List.finRange 3).mapM fun x => chargeSumFl fl ord q a k x
      pure (sumFl fl ord (v.map fun y => fl (y ^ 2)))
  else .error .valueError

/-- The displacements at the interval `τ`, from the fractional coordinates and cells, the framework and the mobile atoms: `get_disp`,
`correct_drift` and the loop body of `get_disps`.  kinisi/parser.py:102-148, 201-221. -/
def windowsFl (fl : K → K) (inv : M3 K → PyM (M3 K)) (ord : ℕ → SumOrder) (coords : List (List (V3 K))) (latt : List (M3 K))
    (drift idx : List ℤ) (τ : ℤ) : PyM (Arr3 K) := do
  let d ← getDispFl fl inv coords latt
  let dc ← correctDriftFl fl ord drift d.2
  let rows ← idx.mapM (npIdx dc.n0)
  multiOriginFl fl dc rows τ

/-- The MSD at the interval `τ`: `d_squared.mean()`.  kinisi/diffusion.py:572-597. -/
def msdFl (fl : K → K) (inv : M3 K → PyM (M3 K)) (ord : ℕ → SumOrder) (coords : List (List (V3 K))) (latt : List (M3 K))
    (drift idx : List ℤ) (axes : List (Fin 3)) (τ : ℤ) : PyM (Option K) := do
  let a ← windowsFl fl inv ord coords latt drift idx τ
  .ok (meanFl fl ord (dSquaredFl fl ord axes a))

/-- The MSTD at the interval `τ`: `coll_motion.mean()`.  kinisi/diffusion.py:657-684. -/
def mstdFl (fl : K → K) (inv : M3 K → PyM (M3 K)) (ord : ℕ → SumOrder) (coords : List (List (V3 K))) (latt : List (M3 K))
    (drift idx : List ℤ) (axes : List (Fin 3)) (τ : ℤ) : PyM (Option K) := do
  let a ← windowsFl fl inv ord coords latt drift idx τ
  .ok (meanFl fl ord (collMotionFl fl ord axes a))

/-- The MSCD at the interval `τ`: `sq_chg_motion.mean()`.  kinisi/diffusion.py:742-778.  A scalar charge is repeated for the atoms of the first
interval; all intervals have the same atoms. -/
def mscdFl (fl : K → K) (inv : M3 K → PyM (M3 K)) (ord : ℕ → SumOrder) (coords : List (List (V3 K))) (latt : List (M3 K))
    (drift idx : List ℤ) (charge : Charge K) (τ : ℤ) : PyM (Option K) := do
  let a ← windowsFl fl inv ord coords latt drift idx τ
  let l ← chgMotionFl fl ord (charge.expand a.n0) a
  .ok (meanFl fl ord l)

end Kinisi

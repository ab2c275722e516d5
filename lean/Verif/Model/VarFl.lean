import Verif.Model.MsdFl

/-!
# The variance and the non-Gaussian parameter with rounding after every floating point operation

As `npVar1` (`Py`) and `ngpCalculation` (`Model/Observables`), with `fl` and the order of additions of `Model/MsdFl`.
-/

namespace Kinisi
variable {K : Type} [Field K] [LinearOrder K] [IsStrictOrderedRing K] [FloorRing K]

/-- `np.var(l, ddof=1)` (numpy/core/_methods.py `_var`): the mean, the differences from it, their squares, the sum, divided by the exact
`len(l) - 1`.  Used in kinisi/diffusion.py:580, 598, 666, 684, 758, 776. -/
def varFl (fl : K → K) (ord : ℕ → SumOrder) (l : List K) : Option K :=
  if l.length ≤ 1 then none
  else
    let m := fl (sumFl fl ord l / l.length)
    let x := l.map fun y => fl (y - m)
    some (fl (sumFl fl ord (x.map fun y => fl (y * y)) / ((l.length : K) - 1)))

/-- `ngp_calculation`; `none` when dividing by zero.  kinisi/diffusion.py:291-303. -/
def ngpFl (fl : K → K) (ord : ℕ → SumOrder) (d : List K) : Option K :=
  if d.length = 0 then none
  else
    let top := fl (fl (sumFl fl ord (d.map fun x => fl (x * x)) / d.length) * 3)
    let m := fl (sumFl fl ord d / d.length)
    let bottom := fl (fl (m * m) * 5)
    if bottom = 0 then none else some (fl (fl (top / bottom) - 1))

/-- `np.var(…, ddof=1) / eff`, with `eff` the number of independent samples. -/
def vOfFl (fl : K → K) (ord : ℕ → SumOrder) (l : List K) (eff : K) : Option K :=
  (varFl fl ord l).bind fun r => if eff = 0 then none else some (fl (r / eff))

/-- An entry of `_v` of `MSDBootstrap` at the interval `τ`.  kinisi/diffusion.py:572-598. -/
def msdVarFl (fl : K → K) (inv : M3 K → PyM (M3 K)) (ord : ℕ → SumOrder) (coords : List (List (V3 K))) (latt : List (M3 K))
    (drift idx : List ℤ) (axes : List (Fin 3)) (eff : K) (τ : ℤ) : PyM (Option K) := do
  let a ← windowsFl fl inv ord coords latt drift idx τ
  .ok (vOfFl fl ord (dSquaredFl fl ord axes a) eff)

/-- An entry of `_v` of `MSTDBootstrap`.  kinisi/diffusion.py:657-684. -/
def mstdVarFl (fl : K → K) (inv : M3 K → PyM (M3 K)) (ord : ℕ → SumOrder) (coords : List (List (V3 K))) (latt : List (M3 K))
    (drift idx : List ℤ) (axes : List (Fin 3)) (eff : K) (τ : ℤ) : PyM (Option K) := do
  let a ← windowsFl fl inv ord coords latt drift idx τ
  .ok (vOfFl fl ord (collMotionFl fl ord axes a) eff)

/-- An entry of `_v` of `MSCDBootstrap`.  kinisi/diffusion.py:742-776. -/
def mscdVarFl (fl : K → K) (inv : M3 K → PyM (M3 K)) (ord : ℕ → SumOrder) (coords : List (List (V3 K))) (latt : List (M3 K))
    (drift idx : List ℤ) (charge : Charge K) (eff : K) (τ : ℤ) : PyM (Option K) := do
  let a ← windowsFl fl inv ord coords latt drift idx τ
  let l ← chgMotionFl fl ord (charge.expand a.n0) a
  .ok (vOfFl fl ord l eff)

end Kinisi

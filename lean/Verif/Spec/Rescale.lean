import Verif.Model.Observables

/-!
# Specification: other units of time, length and charge

`t` is the factor of the times, `c` that of the lengths, `e` that of the observable (a squared length, or a squared length times a squared charge).
-/

namespace Kinisi.Spec
variable {K : Type} [Field K] [LinearOrder K]

/-- Every charge multiplied by `c`; a scalar stays a scalar, an array an array. -/
def scaleCharge (c : K) : Charge K → Charge K
  | .scalar q => .scalar (c * q)
  | .array q => .array (q.map fun x => c * x)

/-- Every displacement multiplied by `c`. -/
def scaleArr (c : K) (a : Arr3 K) : Arr3 K := ⟨a.n0, a.n1, fun i k x => c * a.get i k x⟩

/-- The same object in other units: times times `t`, lengths times `c`, values of the observable (means, standard deviations, resampled means) times `e`,
their variances times `e²`; counts and the non-Gaussian parameter as they are. -/
def rescaled (t c e : K) (b : Boot K) : Boot K :=
  { b with
    displacements := b.displacements.map (scaleArr c)
    deltaT := b.deltaT.map fun x => t * x
    dt := b.dt.map fun x => t * x
    distributions := b.distributions.map fun l => l.map fun x => e * x
    n := b.n.map fun x => e * x
    s := b.s.map (Option.map fun x => e * x)
    v := b.v.map (Option.map fun x => e ^ 2 * x)
    nBoot := b.nBoot.map (Option.map fun x => e * x)
    sBoot := b.sBoot.map (Option.map fun x => e * x)
    vBoot := b.vBoot.map (Option.map fun x => e ^ 2 * x)
    euclid := b.euclid.map fun l => l.map fun x => c * x }

/-- `normaltest` and `pyblock` do not depend on the unit of their data: the p-value stays, the mean is multiplied by the factor and the
squared standard error by its square. -/
structure UnitFree {G : Type} (e : K) (o : Oracle K G) : Prop where
  normaltest : ∀ l, o.normaltest (l.map fun x => e * x) = o.normaltest l
  reblock : ∀ l, o.reblock (l.map fun x => e * x) = (o.reblock l).map fun p => (e * p.1, e ^ 2 * p.2)

/-- The only property of the square root used: it follows a change of the unit.  (Every square root has it, see `isSqrt_homogeneous`.) -/
def Homogeneous (sq : K → K) : Prop := ∀ e x : K, 0 < e → 0 ≤ x → sq (e ^ 2 * x) = e * sq x

end Kinisi.Spec

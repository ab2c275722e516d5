import Verif.Model.GLS

/-!
# Specification: a change of the units of length and time

`ell` is the factor of the observable (a squared length), `tau` that of the time intervals.
-/

namespace Kinisi.Spec
variable {K : Type} [Field K] [LinearOrder K] [IsStrictOrderedRing K] [FloorRing K]

/-- A parameter vector (gradient, intercept) in the new units. -/
def newUnits (ell tau : K) : List K → List K
  | [] => []
  | g :: rest => (ell / tau * g) :: rest.map fun c => ell * c

/-- The library routines and random numbers `L'` in the new units do what `L` does in the old ones.  The determinant of a multiple differs by a factor that depends on its
size only; the optimum does not depend on the starting point or on a constant added to the function. -/
structure SameLib (ell tau : K) (L L' : GlsLib K) : Prop where
  curveFit : ∀ n t v, L'.curveFit n (t.map (tau * ·)) (v.map (Option.map (ell ^ 2 * ·))) = (L.curveFit n t v).map (ell ^ 2 / tau ^ 2 * ·)
  eig : ∀ m A, L'.eig m (ell ^ 2 • A) = (L.eig m A).map fun p => (fun k => ell ^ 2 * p.1 k, p.2)
  covNearest : ∀ m A, L'.covNearest m (ell ^ 2 • A) = (L.covNearest m A).map (ell ^ 2 • ·)
  slogdet : ∀ m, ∃ δ, ∀ A, L'.slogdet m (ell ^ 2 • A) = (L.slogdet m A).map (· + δ)
  pinvh : ∀ m A, L'.pinvh m (ell ^ 2 • A) = (L.pinvh m A).map ((ell ^ 2)⁻¹ • ·)
  linregress : ∀ t y, L'.linregress (t.map (tau * ·)) (y.map (ell * ·)) = (L.linregress t y).map (ell / tau * ·)
  minimize : ∀ f f' x x' δ, (∀ θ, f' (newUnits ell tau θ) = (f θ).map (· + δ)) → x'.length = x.length →
    L'.minimize f' x' = (L.minimize f x).map (newUnits ell tau)
  randn : L'.randn = L.randn
  emceeCheck : ∀ nw nd pos, L'.emceeCheck nw nd (pos.map (newUnits ell tau)) = L.emceeCheck nw nd pos
  propose : ∀ s w, L'.propose s w = newUnits ell tau (L.propose s w)
  threshold : L'.threshold = L.threshold
  dist : ∀ (c : K) l, 0 < c → L'.dist (l.map (c * ·)) = L.dist l

/-- The same data in the new units. -/
structure SameCurve (ell tau : K) (b b' : Boot K) : Prop where
  dt : b'.dt = b.dt.map (tau * ·)
  n : b'.n = b.n.map (ell * ·)
  v : b'.v = b.v.map (Option.map (ell ^ 2 * ·))
  nO : b'.nO = b.nO
  dims : b'.dims = b.dims

end Kinisi.Spec

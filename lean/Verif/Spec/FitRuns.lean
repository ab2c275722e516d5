import Verif.Model.GLS
import Verif.Spec.Covariance

/-!
When a fit can be expected to run: what the numerical libraries need, and what data and arguments must be like.
-/

set_option linter.unusedSectionVars false

namespace Kinisi.Spec

variable {K : Type} [Field K] [LinearOrder K] [IsStrictOrderedRing K] [FloorRing K]

/-- The points (lists of `nd` coordinates) lie in no hyperplane. -/
def GeneralPosition (nd : ℕ) (pos : List (List K)) : Prop :=
  ∀ (c0 : K) (c : Fin nd → K), (∀ r ∈ pos, c0 + ∑ k : Fin nd, c k * r.getD k 0 = 0) → c = 0

/-- The routines of numpy, scipy, statsmodels, emcee and uravu do their work on input they are made for, for `nd` parameters and `nw` walkers. -/
structure LibraryRuns (L : GlsLib K) (nd nw : ℕ) : Prop where
  /-- positive variances at positive times are fitted with a positive coefficient -/
  curveFit : ∀ (n t : List K) (v : List (Option K)), n.length = t.length → n.length = v.length → n ≠ [] → (∀ x ∈ n, 0 < x) → (∀ x ∈ t, 0 < x) →
    (∀ x ∈ v, ∃ y, x = some y ∧ 0 < y) → ∃ a, L.curveFit n t v = .ok a ∧ 0 < a
  /-- a symmetric matrix is diagonalised -/
  eig : ∀ m (A : Matrix (Fin (m + 1)) (Fin (m + 1)) K), A.transpose = A →
    ∃ ev V, L.eig m A = .ok (ev, V) ∧ V * Matrix.diagonal ev * V.transpose = A
  /-- a symmetric matrix with positive diagonal has a nearest positive definite one -/
  covNearest : ∀ m (A : Matrix (Fin m) (Fin m) K), A.transpose = A → (∀ i, 0 < A i i) → ∃ B, L.covNearest m A = .ok B ∧ PD B
  slogdet : ∀ m (A : Matrix (Fin m) (Fin m) K), PD A → ∃ x, L.slogdet m A = .ok x
  pinvh : ∀ m (A : Matrix (Fin m) (Fin m) K), PD A → ∃ B, L.pinvh m A = .ok B
  /-- a regression line needs two different times -/
  linregress : ∀ t y : List K, t.length = y.length → 2 ≤ t.length → t.Pairwise (· < ·) → ∃ s, L.linregress t y = .ok s
  /-- started where the function is finite, the optimiser returns parameters; none of them is exactly zero -/
  minimize : ∀ (f : List K → Option K) (x0 : List K), x0.length = nd → f x0 ≠ none → ∃ x, L.minimize f x0 = .ok x ∧ x.length = nd ∧ ∀ y ∈ x, y ≠ 0
  /-- the random numbers are in no special position -/
  randn : GeneralPosition nd ((List.range nw).map fun w => (List.range nd).map fun k => L.randn w k)
  /-- emcee wants twice as many walkers as parameters, and walkers that span the parameter space -/
  emceeCheck : ∀ pos : List (List K), pos.length = nw → (∀ r ∈ pos, r.length = nd) → 2 * nd ≤ nw → GeneralPosition nd pos →
    L.emceeCheck nw nd pos = .ok ()
  propose : ∀ s w, (L.propose s w).length = nd
  dist : ∀ l : List K, l ≠ [] → L.dist l = .ok ()

/-- Data that can be fitted: as many times, values, variances and numbers of observations; times in increasing order, times, numbers and variances
positive. -/
structure Fittable (b : Boot K) : Prop where
  values : b.n.length = b.dt.length
  variances : b.v.length = b.dt.length
  counts : b.nO.length = b.dt.length
  increasing : b.dt.Pairwise (· < ·)
  positiveTimes : ∀ t ∈ b.dt, 0 < t
  positiveCounts : ∀ x ∈ b.nO, 0 < x
  positiveVariances : ∀ x ∈ b.v, ∃ y, x = some y ∧ 0 < y

/-- Number of fitted parameters. -/
def parameters (fitIntercept : Bool) : ℕ := if fitIntercept then 2 else 1

/-- Arguments that make sense for the times `dt`: two times from `start_dt` on, twice as many walkers as parameters, at least one sample that is
kept. -/
structure ValidFit (a : GlsArgs K) (dt : List K) : Prop where
  regime : 2 ≤ (dt.filter fun t => decide (a.startDt ≤ t)).length
  condMax : a.condMax ≠ 0
  walkers : 2 * parameters a.fitIntercept ≤ a.nWalkers
  thin : 1 ≤ a.thin
  samples : a.thin ≤ a.nSamples

end Kinisi.Spec

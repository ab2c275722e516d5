import Verif.Model.Covariance

/-!
# The standard deviations and the covariance matrix with rounding after every floating point operation

As `npSqrt` and `populateCovariance`, with `fl` after each operation.
-/

namespace Kinisi
variable {K : Type} [Field K] [LinearOrder K] [IsStrictOrderedRing K] [FloorRing K]

/-- `np.sqrt(self._v[-1])`: the correctly rounded root (IEEE 754 demands it), nan for a negative value.  kinisi/diffusion.py:599, 685, 777. -/
def sqrtFl (fl sq : K → K) (v : Option K) : Option K := v.bind fun x => if x < 0 then none else some (fl (sq x))

/-- Body of the inner loop of `_populate_covariance_matrix`, kinisi/diffusion.py:850-853. -/
def covStepFl (fl : K → K) (v : List (Option K)) (n : List K) (i : ℕ) (M : List (List (Option K))) (j : ℕ) : PyM (List (List (Option K))) := do
  let ni ← pyGet n i
  let nj ← pyGet n j
  let vi ← pyGet v i
  let ratio := if nj = 0 then none else some (fl (ni / nj))
  let value := ratio.bind fun r => vi.map fun x => fl (r * x)
  .ok (setEntry (setEntry M i j value) j i value)

/-- kinisi/diffusion.py:838-854 `_populate_covariance_matrix`. -/
def populateCovarianceFl (fl : K → K) (v : List (Option K)) (n : List K) : PyM (List (List (Option K))) :=
  (List.range v.length).foldlM (fun M i => (List.range' i (v.length - i)).foldlM (covStepFl fl v n i) M)
    (List.replicate v.length (List.replicate v.length (some 0)))

end Kinisi

import Verif.Spec.Chords

/-!
The gradient that a curve gets with the random walk model, in terms of the curve alone.
-/

set_option linter.unusedSectionVars false

namespace Kinisi.Spec

variable {K : Type} [Field K] [LinearOrder K] [IsStrictOrderedRing K]

/-- The gradient of the curve with values `y` at times `t`: without intercept the line through the first point, with intercept the line from the mean intercept of the
chords (weighted with `chordWeight`) to the first point, and never negative. -/
def walkGradient (intercept : Bool) (t y : List K) : K :=
  if intercept then
    max 0 ((y.getD 0 0 - weightedMean (chordWeight fun i => t.getD i 0) (chordIntercept (fun i => t.getD i 0) fun i => y.getD i 0) (t.length - 1)) / t.getD 0 0)
  else y.getD 0 0 / t.getD 0 0

end Kinisi.Spec

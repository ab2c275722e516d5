import Verif.Model.Disp

/-!
# Model of `Parser.get_disp` with rounding after every floating point operation

The same code as `Model/Disp`, with `fl` applied to the result of each operation (`fl = id` gives back `Model/Disp`, see
`getDispFl_id`).
-/

namespace Kinisi
variable {K : Type} [Field K] [LinearOrder K] [IsStrictOrderedRing K] [FloorRing K]

/-- `np.einsum('ijk,jkl->ijl', x, A)` for fixed site and frame: three products, added from left to right.
kinisi/parser.py:122, 125, 126. -/
def vmFl (fl : K → K) (x : V3 K) (A : M3 K) : V3 K := fun l =>
  fl (fl (fl (x 0 * A 0 l) + fl (x 1 * A 1 l)) + fl (x 2 * A 2 l))

/-- `wrapped_diff` for fixed site and step.  kinisi/parser.py:122-123. -/
def wrappedDiffFl (fl : K → K) (a b : V3 K) (La Lb : M3 K) : V3 K := fun l => fl (vmFl fl b Lb l - vmFl fl a La l)

/-- The whole cells subtracted from a step.  kinisi/parser.py:125. -/
def shiftFl (fl : K → K) (a b : V3 K) (La Lb LbInv : M3 K) (k : Fin 3) : ℤ :=
  ⌊fl (vmFl fl (wrappedDiffFl fl a b La Lb) LbInv k + 1 / 2)⌋

/-- One unwrapped step.  kinisi/parser.py:125-127. -/
def unwrapStepFl (fl : K → K) (a b : V3 K) (La Lb LbInv : M3 K) : V3 K := fun l =>
  fl (wrappedDiffFl fl a b La Lb l - vmFl fl (fun k => (shiftFl fl a b La Lb LbInv k : K)) Lb l)

/-- `np.cumsum`: the first entry, then one rounded addition per entry.  kinisi/parser.py:129. -/
def cumsumFl (fl : K → K) (s : ℕ → K) : ℕ → K
  | 0 => s 0
  | j + 1 => fl (cumsumFl fl s j + s (j + 1))

/-- `Parser.get_disp` (kinisi/parser.py:102-129) with rounding; `inv` is `np.linalg.inv`.  Errors as in `getDisp`. -/
def getDispFl (fl : K → K) (inv : M3 K → PyM (M3 K)) (coords : List (List (V3 K))) (latt : List (M3 K)) : PyM (Bool × Arr3 K) :=
  let warn := triclinicTest latt
  match coords with
  | [] => .error .valueError
  | c0 :: _ =>
    if coords.all (fun c => c.length = c0.length) then do
      let lattInv ← latt.mapM inv
      if coords.length ≠ latt.length then .error .valueError
      else
        let x : ℕ → ℕ → V3 K := fun i j => (coords.getD j []).getD i 0
        let L : ℕ → M3 K := fun j => latt.getD j 0
        let Linv : ℕ → M3 K := fun j => lattInv.getD j 0
        .ok (warn,
          { n0 := c0.length
            n1 := coords.length - 1
            get := fun i j l =>
              cumsumFl fl (fun t => unwrapStepFl fl (x i t) (x i (t + 1)) (L t) (L (t + 1)) (Linv (t + 1)) l) j })
    else .error .valueError

end Kinisi

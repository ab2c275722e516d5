import Verif.Py

/-!
# Model of `Parser.get_disp` and `Parser.correct_drift`
-/

namespace Kinisi
variable {K : Type} [Field K] [LinearOrder K] [IsStrictOrderedRing K] [FloorRing K]

/-- `np.any(latt[triclinic_test] != 0)`: some off-diagonal entry of some cell is non-zero.
kinisi/parser.py:112-115. -/
def triclinicTest (latt : List (M3 K)) : Bool :=
  latt.any fun L => (List.finRange 3).any fun r => (List.finRange 3).any fun c => decide (r ≠ c) && decide (L r c ≠ 0)

/-- One unwrapped step of one atom: `a`, `b` are the fractional coordinates in the earlier and the later frame, `La`,
`Lb` the cells of these frames, `LbInv` the inverse of the later cell.
kinisi/parser.py:122-127 (`wrapped`, `wrapped_diff`, `diff_diff`, `unwrapped_disp` for fixed site and step). -/
def unwrapStep (a b : V3 K) (La Lb LbInv : M3 K) : V3 K :=
  let wrappedDiff : V3 K := fun l => vm b Lb l - vm a La l
  let shift : V3 K := fun k => ((⌊vm wrappedDiff LbInv k + 1 / 2⌋ : ℤ) : K)
  fun l => wrappedDiff l - vm shift Lb l

/-- `Parser.get_disp`: coordinates are a list over frames of the list over atoms of fractional coordinates.
Returns whether the non-orthorhombic warning was issued, and the displacement array.
kinisi/parser.py:102-129.  Errors: `np.concatenate` of no or of unequal arrays (ValueError, line 120), singular cell
(LinAlgError, line 121), number of cells unequal to number of frames (ValueError of `einsum`, line 122; numpy's
broadcasting of a length-1 axis is not modelled, the constructors always pass equally long lists). -/
def getDisp (coords : List (List (V3 K))) (latt : List (M3 K)) : PyM (Bool × Arr3 K) :=
  let warn := triclinicTest latt
  match coords with
  | [] => .error .valueError
  | c0 :: _ =>
    if coords.all (fun c => c.length = c0.length) then do
      let lattInv ← latt.mapM inv3
      if coords.length ≠ latt.length then .error .valueError
      else
        let x : ℕ → ℕ → V3 K := fun i j => (coords.getD j []).getD i 0
        let L : ℕ → M3 K := fun j => latt.getD j 0
        let Linv : ℕ → M3 K := fun j => lattInv.getD j 0
        .ok (warn,
          { n0 := c0.length
            n1 := coords.length - 1
            get := fun i j l =>
              ∑ t ∈ Finset.range (j + 1), unwrapStep (x i t) (x i (t + 1)) (L t) (L (t + 1)) (Linv (t + 1)) l })
    else .error .valueError

/-- `Parser.correct_drift`.  kinisi/parser.py:132-148.  `np.average(disp[drift_indices], axis=0)` is the mean over the
listed rows (a row listed twice counts twice); numpy indexing with negative wrap-around and IndexError. -/
def correctDrift (drift : List ℤ) (disp : Arr3 K) : PyM (Arr3 K) :=
  if drift.length > 0 then do
    let rows ← drift.mapM (npIdx disp.n0)
    .ok { disp with
      get := fun i j l => disp.get i j l - (rows.map fun r => disp.get r j l).sum / rows.length }
  else .ok disp

end Kinisi

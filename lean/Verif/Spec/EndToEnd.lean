import Verif.Spec.Path
import Verif.Spec.Observables

/-!
# Specification vocabulary for the whole way from a trajectory to the MSD (no reference to the model)
-/

namespace Kinisi.Spec
variable {K : Type} [Field K] [LinearOrder K]

/-- The atoms whose symbol is among the chosen species. -/
def chosen (symbols species : List String) : List ℕ := (List.range symbols.length).filter fun k => species.contains (symbols.getD k "")

/-- The other atoms. -/
def others (symbols species : List String) : List ℕ := (List.range symbols.length).filter fun k => !species.contains (symbols.getD k "")

/-- True displacement of atom `i` from frame `s` to frame `t`, minus the mean true displacement of the framework atoms; `u` is the
true path in fractional coordinates, `L` the cell. -/
def trueMove (L : M3 K) (u : ℕ → ℕ → V3 K) (fw : List ℕ) (i s t : ℕ) : V3 K := fun l =>
  (cart L (u i t) l - cart L (u i s) l) - meanOver fw fun a => cart L (u a t) l - cart L (u a s) l

/-- Squared length along the axes `A`. -/
def lengthSq (A : Finset (Fin 3)) (v : V3 K) : K := ∑ x ∈ A, v x ^ 2

/-- The average reported for an interval of `τ` frames of a trajectory of `F` frames: over all atoms, of the squared true
displacement over each of the `F - τ` windows of `τ` frames and, in addition, over the first `τ - 1` frames. -/
def reportedMsd (A : Finset (Fin 3)) (L : M3 K) (u : ℕ → ℕ → V3 K) (fw atoms : List ℕ) (F τ : ℕ) : K :=
  (atoms.map fun i => lengthSq A (trueMove L u fw i 0 (τ - 1)) +
    ∑ s ∈ Finset.range (F - τ), lengthSq A (trueMove L u fw i s (s + τ))).sum / ((atoms.length : K) * ((F - τ + 1 : ℕ) : K))

/-- The array `a` holds, for each of `atoms`, its true displacement over the first `τ - 1` frames and over each window of `τ` frames. -/
def TrueWindows (L : M3 K) (u : ℕ → ℕ → V3 K) (fw atoms : List ℕ) (F τ : ℕ) (a : Arr3 K) : Prop :=
  a.n0 = atoms.length ∧ a.n1 = F - τ + 1 ∧ ∀ s, (hs : s < atoms.length) →
    (∀ l, a.get s 0 l = trueMove L u fw atoms[s] 0 (τ - 1) l) ∧
    ∀ k < F - τ, ∀ l, a.get s (k + 1) l = trueMove L u fw atoms[s] k (k + τ) l

/-- Sum over the atoms of weight times true displacement from frame `s` to frame `t`; `q j` is the weight of the `j`-th atom. -/
def totalMove (L : M3 K) (u : ℕ → ℕ → V3 K) (fw atoms : List ℕ) (q : ℕ → K) (s t : ℕ) : V3 K := fun l =>
  ∑ j : Fin atoms.length, q j * trueMove L u fw atoms[j] s t l

/-- The average of the squared total displacement over each of the `F - τ` windows of `τ` frames and, in addition, over the first
`τ - 1` frames. -/
def reportedTotal (A : Finset (Fin 3)) (L : M3 K) (u : ℕ → ℕ → V3 K) (fw atoms : List ℕ) (q : ℕ → K) (F τ : ℕ) : K :=
  (lengthSq A (totalMove L u fw atoms q 0 (τ - 1)) +
    ∑ s ∈ Finset.range (F - τ), lengthSq A (totalMove L u fw atoms q s (s + τ))) / ((F - τ + 1 : ℕ) : K)

/-- The squared displacements behind `reportedMsd`, atom by atom: over the first `τ - 1` frames, then over each window of `τ` frames. -/
def reportedSquares (A : Finset (Fin 3)) (L : M3 K) (u : ℕ → ℕ → V3 K) (fw atoms : List ℕ) (F τ : ℕ) : List K :=
  atoms.flatMap fun i => lengthSq A (trueMove L u fw i 0 (τ - 1)) ::
    (List.range (F - τ)).map fun s => lengthSq A (trueMove L u fw i s (s + τ))

/-- Non-Gaussian parameter `3 ⟨r⁴⟩ / (5 ⟨r²⟩²) - 1` of a list of squared displacements; undefined if nothing moved. -/
def ngpOf (l : List K) : Option K :=
  if ∀ x ∈ l, x = 0 then none
  else some (3 * ((l.map fun x => x ^ 2).sum / (l.length : K)) / (5 * (l.sum / (l.length : K)) ^ 2) - 1)

/-- The intervals for which `N` atoms have at least two disjoint windows in `F` frames. -/
def resolved (N F : ℕ) (taus : List ℕ) : List ℕ := taus.filter fun τ => decide (2 ≤ N * (F / τ))

/-- A rotation or reflection: the rows are orthonormal. -/
def Orthogonal (R : M3 K) : Prop := ∀ a b, ∑ l, R a l * R b l = if a = b then 1 else 0

/-- The squared displacements over the first `τ - 1` frames, summed over the atoms. -/
def startTerm (A : Finset (Fin 3)) (L : M3 K) (u : ℕ → ℕ → V3 K) (fw atoms : List ℕ) (τ : ℕ) : K :=
  (atoms.map fun i => lengthSq A (trueMove L u fw i 0 (τ - 1))).sum

/-- The squared displacements over the last `τ - 1` frames, summed over the atoms. -/
def endTerm (A : Finset (Fin 3)) (L : M3 K) (u : ℕ → ℕ → V3 K) (fw atoms : List ℕ) (F τ : ℕ) : K :=
  (atoms.map fun i => lengthSq A (trueMove L u fw i (F - τ) (F - 1))).sum

end Kinisi.Spec

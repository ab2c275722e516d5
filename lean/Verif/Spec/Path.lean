import Verif.Spec.Disp

/-!
# Specification vocabulary for unwrapped paths (no reference to the model)
-/

namespace Kinisi.Spec
variable {K : Type} [Field K] [LinearOrder K]

/-- `p atom frame` is the unwrapped Cartesian position relative to frame 0: zero there, and every step is the minimum image
of the raw step between the stored coordinates `x frame atom`. -/
def IsPath (F n : ℕ) (L : ℕ → M3 K) (x : ℕ → ℕ → V3 K) (p : ℕ → ℕ → V3 K) : Prop :=
  ∀ i < n, p i 0 = 0 ∧ ∀ j, j + 1 < F →
    MinImage (L (j + 1)) (fun l => cart (L (j + 1)) (x (j + 1) i) l - cart (L j) (x j i) l) (fun l => p i (j + 1) l - p i j l)

/-- Position relative to the mean of the framework atoms (to nothing if there are none). -/
def relTo (fw : List ℕ) (p : ℕ → ℕ → V3 K) (i j : ℕ) : V3 K := fun l => p i j l - meanOver fw fun a => p a j l

/-- The observation `d` is the change of position between two frames that are `τ` frames apart, `F` frames in total. -/
def Spans (F τ : ℕ) (q : ℕ → V3 K) (d : V3 K) : Prop := ∃ s, s + τ < F ∧ ∀ l, d l = q (s + τ) l - q s l

/-- What the parsers deliver for an interval of `τ` frames out of `F` frames with positions `q atom frame`: all windows of
`τ` frames in order, preceded by one observation over the first `τ - 1` frames. -/
def FrameWindows (F : ℕ) (q : ℕ → ℕ → V3 K) (atoms : List ℕ) (τ : ℕ) (a : Arr3 K) : Prop :=
  a.n0 = atoms.length ∧ a.n1 = F + 1 - τ ∧ ∀ s, (hs : s < atoms.length) →
    (∀ k, 1 ≤ k → k < a.n1 → ∀ l, a.get s k l = q atoms[s] (k - 1 + τ) l - q atoms[s] (k - 1) l) ∧
    ∀ l, a.get s 0 l = q atoms[s] (τ - 1) l - q atoms[s] 0 l

end Kinisi.Spec

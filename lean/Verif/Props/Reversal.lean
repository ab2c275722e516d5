import Verif.Props.Symmetry

/-!
# C83: playing a trajectory backwards
-/

set_option linter.unusedSectionVars false
set_option linter.unusedVariables false

namespace Kinisi
open Spec
variable {K : Type} [Field K] [LinearOrder K] [IsStrictOrderedRing K] [FloorRing K] {G : Type}

theorem trueMove_swap (L : M3 K) (u : ℕ → ℕ → V3 K) (fw : List ℕ) (i s t : ℕ) (l : Fin 3) :
    trueMove L u fw i t s l = -trueMove L u fw i s t l := by
  unfold trueMove
  rw [meanOver_diff, meanOver_diff]
  ring

theorem lengthSq_swap (A : Finset (Fin 3)) (L : M3 K) (u : ℕ → ℕ → V3 K) (fw : List ℕ) (i s t : ℕ) :
    lengthSq A (trueMove L u fw i t s) = lengthSq A (trueMove L u fw i s t) := by
  unfold lengthSq
  exact Finset.sum_congr rfl fun l _ => by rw [trueMove_swap, neg_sq]

/-- The sum over the proper windows is the same for the reversed trajectory. -/
theorem windows_reversed {A : Finset (Fin 3)} {L : M3 K} {u u' : ℕ → ℕ → V3 K} {fw : List ℕ} {F : ℕ}
    (hu : ∀ i j, u' i j = u i (F - 1 - j)) (i : ℕ) {τ : ℕ} (h1 : 1 ≤ τ) :
    ∑ s ∈ Finset.range (F - τ), lengthSq A (trueMove L u' fw i s (s + τ)) =
      ∑ s ∈ Finset.range (F - τ), lengthSq A (trueMove L u fw i s (s + τ)) := by
  rw [← Finset.sum_range_reflect]
  apply Finset.sum_congr rfl
  intro s hs
  rw [Finset.mem_range] at hs
  have hm : ∀ s t, trueMove L u' fw i s t = trueMove L u fw i (F - 1 - s) (F - 1 - t) := by
    intro s t
    funext l
    unfold trueMove
    simp only [hu]
  rw [hm, show F - 1 - (F - τ - 1 - s) = s + τ by omega, show F - 1 - (F - τ - 1 - s + τ) = s by omega, lengthSq_swap]

theorem sum_map_add' (l : List ℕ) (f g : ℕ → K) : (l.map fun i => f i + g i).sum = (l.map f).sum + (l.map g).sum := by
  induction l with
  | nil => simp
  | cons a l ih =>
    simp only [List.map_cons, List.sum_cons, ih]
    ring

theorem reported_reversed {A : Finset (Fin 3)} {L : M3 K} {u u' : ℕ → ℕ → V3 K} {fw atoms : List ℕ} {F : ℕ}
    (hu : ∀ i j, u' i j = u i (F - 1 - j)) {τ : ℕ} (h1 : 1 ≤ τ) (h2 : τ ≤ F) :
    reportedMsd A L u' fw atoms F τ = reportedMsd A L u fw atoms F τ +
      (endTerm A L u fw atoms F τ - startTerm A L u fw atoms τ) / ((atoms.length : K) * ((F - τ + 1 : ℕ) : K)) := by
  unfold reportedMsd endTerm startTerm
  rw [sum_map_add', sum_map_add']
  have e1 : (atoms.map fun i => ∑ s ∈ Finset.range (F - τ), lengthSq A (trueMove L u' fw i s (s + τ))) =
      atoms.map fun i => ∑ s ∈ Finset.range (F - τ), lengthSq A (trueMove L u fw i s (s + τ)) :=
    List.map_congr_left fun i _ => windows_reversed hu i h1
  have e2 : (atoms.map fun i => lengthSq A (trueMove L u' fw i 0 (τ - 1))) =
      atoms.map fun i => lengthSq A (trueMove L u fw i (F - τ) (F - 1)) := by
    apply List.map_congr_left
    intro i _
    rw [← lengthSq_swap]
    have : trueMove L u' fw i (τ - 1) 0 = trueMove L u fw i (F - τ) (F - 1) := by
      funext l
      unfold trueMove
      simp only [hu]
      rw [show F - 1 - (τ - 1) = F - τ by omega, Nat.sub_zero]
    rw [this]
  rw [e1, e2, ← add_div]
  congr 1
  ring

/-- **C83, what holds.** The MSD of the reversed trajectory differs from that of the trajectory only through the additional
observation: the squared displacements over the last `τ - 1` frames take the place of those over the first `τ - 1` frames.  The times
are the same, and so is the MSD of the interval of one frame.  Missing: equality, which fails for longer intervals (`C83_violated`). -/
theorem C83_reversal_partial (E : Num K) (P : Params K) (S : Select K) (sy : List String) (atoms fw : List ℕ) (hS : Picks S sy atoms fw)
    (hP : DefaultGrid E P) (F : ℕ) (hF : 2 ≤ F) (L : M3 K) (V : K) (u u' : ℕ → ℕ → V3 K) (hu : ∀ i j, u' i j = u i (F - 1 - j))
    (m m' : ℕ → ℕ → Fin 3 → ℤ)
    (hstep : ∀ i < sy.length, ∀ j, j + 1 < F → HalfCell fun k => u i (j + 1) k - u i j k)
    (hstep' : ∀ i < sy.length, ∀ j, j + 1 < F → HalfCell fun k => u' i (j + 1) k - u' i j k) (base base' : PyM (Base K)) (unit : K)
    (hb : ReadFrom E P S F sy L V u m base unit) (hb' : ReadFrom E P S F sy L V u' m' base' unit)
    (sq : K → K) (o : Oracle K G) (U : UncParams K) (hblock : U.opt.block = false) (hsub : U.sub = 1)
    (g₁ g₁' g₂ g₂' : G) (Z Z' : Analyzer K) (h : diffusionAnalyzer sq o g₁ U base = .ok (Z, g₁'))
    (h' : diffusionAnalyzer sq o g₂ U base' = .ok (Z', g₂')) :
    Z'.diff.dt = Z.diff.dt ∧ ∃ taus : List ℕ, taus.Pairwise (· < ·) ∧ (∀ τ ∈ taus, 1 ≤ τ ∧ τ ≤ F) ∧
      Z.diff.n.length = taus.length ∧
      Z'.diff.n = List.zipWith (fun x τ => x + (endTerm (axesOf U.dimension) L u fw atoms F τ -
        startTerm (axesOf U.dimension) L u fw atoms τ) / ((atoms.length : K) * ((F - τ + 1 : ℕ) : K))) Z.diff.n taus ∧
      (taus.head? = some 1 → Z'.diff.n.head? = Z.diff.n.head?) := by
  obtain ⟨B, hB, rfl, hm⟩ := diffusion_inv h
  obtain ⟨B', hB', rfl, hm'⟩ := diffusion_inv h'
  obtain ⟨t, a0, ht⟩ := read_base hS hP hF hstep hb hB
  obtain ⟨t', b0, ht'⟩ := read_base hS hP hF hstep' hb' hB'
  obtain rfl := map_cast_inj (a0.symm.trans b0)
  obtain ⟨a1, a2⟩ := msd_of_parsed ht hblock hsub hm
  obtain ⟨b1, b2⟩ := msd_of_parsed ht' hblock hsub hm'
  have hr : ∀ τ ∈ resolved atoms.length F t, 1 ≤ τ ∧ τ ≤ F := fun τ hτ => ht.range τ (List.mem_filter.mp hτ).1
  have hn : Z'.diff.n = List.zipWith (fun x τ => x + (endTerm (axesOf U.dimension) L u fw atoms F τ -
        startTerm (axesOf U.dimension) L u fw atoms τ) / ((atoms.length : K) * ((F - τ + 1 : ℕ) : K))) Z.diff.n
        (resolved atoms.length F t) := by
    rw [b1, a1, List.zipWith_map_left, List.zipWith_self]
    exact List.map_congr_left fun τ hτ => reported_reversed hu (hr τ hτ).1 (hr τ hτ).2
  refine ⟨b2.trans a2.symm, resolved atoms.length F t, ht.sorted.sublist List.filter_sublist, hr, by rw [a1, List.length_map], hn, ?_⟩
  intro h1
  rw [hn]
  cases hl : resolved atoms.length F t with
  | nil => rw [hl] at h1; cases h1
  | cons a l =>
    rw [hl] at h1
    obtain rfl := Option.some.inj h1
    rw [a1, hl]
    have e1 : endTerm (axesOf U.dimension) L u fw atoms F 1 = startTerm (axesOf U.dimension) L u fw atoms 1 := by
      have hz : ∀ i t, lengthSq (axesOf U.dimension) (trueMove L u fw i t t) = 0 := by
        intro i t
        unfold lengthSq trueMove
        simp only [sub_self, meanOver_zero]
        simp
      unfold endTerm startTerm
      simp only [Nat.sub_self, hz]
    simp [e1]

/-- **C83, violated.** The same trajectory forwards and backwards. -/
theorem C83_violated :
    ((diffusionAnalyzer id (exOracle ℚ) () exUnc (fromAse exNum exParams exSelect 1 none
      (.one (wrapped 5 ["Li", "O", "Li"] exBox 1000 exTrue exImages)))).toOption.map fun z => z.1.diff.n) =
      some [84 / 125, 9 / 4, 322 / 75, 337 / 50, 256 / 25] ∧
    ((diffusionAnalyzer id (exOracle ℚ) () exUnc (fromAse exNum exParams exSelect 1 none
      (.one (wrapped 5 ["Li", "O", "Li"] exBox 1000 (fun i j => exTrue i (5 - 1 - j)) exImages)))).toOption.map fun z => z.1.diff.n) =
      some [84 / 125, 273 / 100, 6, 481 / 50, 256 / 25] := by
  constructor <;> decide +kernel

theorem exReverse_half : ∀ i < 3, ∀ j, j + 1 < 5 → HalfCell fun k => exTrue i (5 - 1 - (j + 1)) k - exTrue i (5 - 1 - j) k := by
  intro i hi j hj k
  have : j < 4 := by omega
  interval_cases i <;> interval_cases j <;> fin_cases k <;> decide +kernel

/-- `C83_reversal_partial` for this trajectory and its reverse. -/
example (Z Z' : Analyzer ℚ)
    (h : diffusionAnalyzer id (exOracle ℚ) () exUnc (fromAse exNum exParams exSelect 1 none
      (.one (wrapped 5 ["Li", "O", "Li"] exBox 1000 exTrue exImages))) = .ok (Z, ()))
    (h' : diffusionAnalyzer id (exOracle ℚ) () exUnc (fromAse exNum exParams exSelect 1 none
      (.one (wrapped 5 ["Li", "O", "Li"] exBox 1000 (fun i j => exTrue i (5 - 1 - j)) exImages))) = .ok (Z', ())) :
    Z'.diff.dt = Z.diff.dt :=
  (C83_reversal_partial exNum exParams exSelect _ _ _ exPicks exGrid 5 (by decide) exBox 1000 exTrue _ (fun _ _ => rfl) exImages exImages
    exTrue_half exReverse_half _ _ 1 (.inl ⟨rfl, rfl⟩) (.inl ⟨rfl, rfl⟩) id (exOracle ℚ) exUnc rfl rfl () () () () Z Z' h h').1

end Kinisi

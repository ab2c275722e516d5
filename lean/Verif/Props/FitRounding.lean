import Verif.Props.Chords
import Verif.Props.MsdFl
import Verif.Props.Collective

/-!
# C150: what rounding does to the fitted coefficient

The values of the curve computed in floating point arithmetic (C104) in place of the exact ones: the gradient of the fit with the random walk model changes by a small multiple of the machine precision.
-/

set_option linter.unusedSectionVars false
set_option linter.unusedVariables false

namespace Kinisi
open Spec
variable {K : Type} [Field K] [LinearOrder K] [IsStrictOrderedRing K] [FloorRing K] {G : Type}

theorem replaced_aligned {b : Boot K} (hb : InverseCounts b ∧ Aligned b) {y : List K} (hy : y.length = b.n.length) : InverseCounts { b with n := y } ∧ Aligned { b with n := y } := by
  obtain ⟨⟨⟨κ, hκ⟩, ht, hn⟩, l1, l2, l3⟩ := hb
  exact ⟨⟨⟨κ, hκ⟩, ht, hn⟩, l1.trans hy.symm, l2.trans hy.symm, l3⟩

/-- **C150, curves.** Values with a relative error of `θ`, on a curve that stays below `Y` at the first fitted time and grows no faster than the time: the gradient of the fit with the random walk model changes by at most
`θ Y (1 / t + 2 Q / δ)`, where `t` is the first fitted time, `δ` a lower bound of the distance of neighbouring times, and `Q` is 7/2 when no time is more than twice the one before. -/
theorem C150_curve (b : Boot K) (hb : InverseCounts b ∧ Aligned b) (y : List K) (hy : y.length = b.n.length) (r : ℕ) (hr : r + 2 ≤ b.n.length) (θ Y δ Q : K) (hδ : 0 < δ) (hθ : 0 ≤ θ)
    (hgap : ∀ i, r ≤ i → i + 1 < b.n.length → δ ≤ b.dt.getD (i + 1) 0 - b.dt.getD i 0)
    (hQ : ∀ i, r ≤ i → i + 1 < b.n.length → b.dt.getD i 0 ^ 2 + b.dt.getD i 0 * b.dt.getD (i + 1) 0 + b.dt.getD (i + 1) 0 ^ 2 ≤ Q * (b.dt.getD i 0 * b.dt.getD (i + 1) 0))
    (herr : ∀ i, r ≤ i → i < b.n.length → |y.getD i 0 - b.n.getD i 0| ≤ θ * b.n.getD i 0) (hY : ∀ i, r ≤ i → i < b.n.length → b.n.getD i 0 ≤ Y * (b.dt.getD i 0 / b.dt.getD r 0))
    (g c g' c' : K) (h : ModelFit b r g c) (h' : ModelFit { b with n := y } r g' c') : |g' - g| ≤ θ * Y * (1 / b.dt.getD r 0 + 2 * Q / δ) := by
  have := (C147_close b { b with n := y } hb (replaced_aligned hb hy) rfl r hr δ Q (θ * Y) hδ hgap hQ g c g' c' h h').2 (fun i h1 h2 =>
    (herr i h1 h2).trans (by rw [mul_assoc]; exact mul_le_mul_of_nonneg_left (hY i h1 h2) hθ))
  calc |g' - g| ≤ θ * Y / b.dt.getD r 0 + 2 * Q * (θ * Y) / δ := this
    _ = θ * Y * (1 / b.dt.getD r 0 + 2 * Q / δ) := by ring

/-- **C150, the means.** One trajectory in any format: the mean squared displacements computed in floating point arithmetic, with the additions in any order, in place of the exact ones.  The diffusion coefficient changes by a
relative error of one rounding per operation that a square passes through, times `Y (1 / t + 2 Q / δ)`: the number of frames only counts through the depth of the additions. -/
theorem C150_mean (E : Num K) (hfl : E.fl = id) (P : Params K) (hsm : P.sampling = "multi-origin") (hc : 0 < P.stepSkip.val * P.timeStep.val) (S : Select K) (fr : List (Frame K)) (uni : Universe K)
    (base : PyM (Base K)) (unit : K) (hb : ReadFrames E P S fr uni base unit) (sq : K → K) (o : Oracle K G) (U : UncParams K) (hsub : U.sub = 1) (hblock : U.opt.block = false) (g₁ g₂ : G) (Z : Analyzer K)
    (h : diffusionAnalyzer sq o g₁ U base = .ok (Z, g₂)) (hpos : ∀ t ∈ Z.deltaT, 0 < t) (hasc : Z.deltaT.Pairwise (· < ·))
    {fl : K → K} {ε : K} (hε : RelErr fl ε) (hε0 : 0 ≤ ε) {ord : ℕ → SumOrder} (ho : ValidOrder ord) (axes : List (Fin 3)) (hax : axes ≠ []) (hnd : axes.Nodup) (haxes : axes.toFinset = axesOf U.dimension)
    (d : ℕ) (hd : ∀ a ∈ Z.disp3d, (ord axes.length).depth + (ord (a.n0 * a.n1)).depth + 2 ≤ d)
    (y : List K) (hy : y.length = Z.diff.n.length) (hval : ∀ (i : ℕ) (a : Arr3 K), i < Z.diff.n.length → Z.disp3d[i]? = some a → meanFl fl ord (dSquaredFl fl ord axes a) = y[i]?)
    (r : ℕ) (hr : r + 2 ≤ Z.diff.n.length) (Y δ Q : K) (hδ : 0 < δ)
    (hgap : ∀ i, r ≤ i → i + 1 < Z.diff.n.length → δ ≤ Z.diff.dt.getD (i + 1) 0 - Z.diff.dt.getD i 0)
    (hQ : ∀ i, r ≤ i → i + 1 < Z.diff.n.length → Z.diff.dt.getD i 0 ^ 2 + Z.diff.dt.getD i 0 * Z.diff.dt.getD (i + 1) 0 + Z.diff.dt.getD (i + 1) 0 ^ 2 ≤ Q * (Z.diff.dt.getD i 0 * Z.diff.dt.getD (i + 1) 0))
    (hY : ∀ i, r ≤ i → i < Z.diff.n.length → Z.diff.n.getD i 0 ≤ Y * (Z.diff.dt.getD i 0 / Z.diff.dt.getD r 0))
    (g c g' c' : K) (f : ModelFit Z.diff r g c) (f' : ModelFit { Z.diff with n := y } r g' c') : |g' - g| ≤ ((1 + ε) ^ d - 1) * Y * (1 / Z.diff.dt.getD r 0 + 2 * Q / δ) := by
  have hal := C147_runs E hfl P hsm hc S fr uni base unit hb sq o U hsub (.scalar 1) g₁ g₂ Z (.inl h) hpos hasc
  have one : 1 ≤ 1 + ε := by linarith
  obtain ⟨B, hB, e, m⟩ := diffusion_inv h
  rw [hsub] at m
  obtain ⟨ds, dts, s1, -, -, s4, -⟩ := C28_msd sq o U.opt hblock _ _ _ _ _ _ _ _ m
  rw [pyStride_one] at s1
  obtain rfl := Except.ok.inj s1
  have ez : Z.disp3d = B.disp3d := by rw [e]
  refine C150_curve Z.diff hal y hy r hr _ Y δ Q hδ (sub_nonneg.2 (one_le_pow₀ one)) hgap hQ (fun i h1 h2 => ?_) hY g c g' c' f f'
  obtain ⟨a, a1, a2, a3, -⟩ := s4 i h2
  obtain ⟨x, x1, x2⟩ := C104_mean hε hε0 ho hax hnd a a2
  rw [hval i a h2 (by rw [ez]; exact a1)] at x1
  rw [haxes] at x2
  rw [List.getD_eq_getElem?_getD, List.getD_eq_getElem?_getD, x1, a3]
  refine x2.trans (mul_le_mul_of_nonneg_right (sub_le_sub_right (pow_le_pow_right₀ one (hd a ?_)) 1) (C28_nonneg sq o U.opt hblock _ _ _ _ _ _ _ _ m _ (List.mem_of_getElem? a3)))
  rw [ez]
  exact List.mem_of_getElem? a1

/-- **C150, the whole computation.** From the stored coordinates through unwrapping, drift correction, windows and means in floating point arithmetic: if the errors of C104 are at most `R` at every interval, the gradient changes
by at most `R (1 / t + Q / δ)`. -/
theorem C150_path {fl : K → K} {ε : K} {inv : M3 K → PyM (M3 K)} {F n : ℕ} {L : M3 K} {u : ℕ → ℕ → V3 K} {m : ℕ → ℕ → Fin 3 → ℤ} {C A B κ M : K} (hP : FlPath fl ε inv F n L u m C A B κ M)
    {ord : ℕ → SumOrder} (ho : ValidOrder ord) (atoms fw : List ℕ) (hat : ∀ a ∈ atoms, a < n) (hfw : ∀ a ∈ fw, a < n) (hne : atoms ≠ []) (axes : List (Fin 3)) (hax : axes ≠ []) (hnd : axes.Nodup)
    (taus : List ℕ) (hτ : ∀ τ ∈ taus, 1 ≤ τ ∧ τ ≤ F) (γ : K) (hγf : fw ≠ [] → (1 + ε) ^ ((ord fw.length).depth + 1) - 1 ≤ γ)
    (hγ : ∀ τ ∈ taus, (1 + ε) ^ ((ord axes.length).depth + (ord (atoms.length * (F - τ + 1))).depth + 2) - 1 ≤ γ) (R : K)
    (hR : ∀ τ ∈ taus, msdError γ (dispError ε γ C A B M F) (4 * M) (reportedMsd axes.toFinset L u fw atoms F τ) ≤ R)
    (b : Boot K) (hb : InverseCounts b ∧ Aligned b) (hn : b.n = taus.map fun τ : ℕ => reportedMsd axes.toFinset L u fw atoms F τ) (y : List K)
    (hy : List.Forall₂ (fun (τ : ℕ) x => msdFl fl inv ord (storedCoords F n u m) (cells (F + 1) fun _ => L) (fw.map fun a : ℕ => (a : ℤ)) (atoms.map fun a : ℕ => (a : ℤ)) axes τ = .ok (some x)) taus y)
    (r : ℕ) (hr : r + 2 ≤ taus.length) (δ Q : K) (hδ : 0 < δ) (hgap : ∀ i, r ≤ i → i + 1 < taus.length → δ ≤ b.dt.getD (i + 1) 0 - b.dt.getD i 0)
    (hQ : ∀ i, r ≤ i → i + 1 < taus.length → b.dt.getD i 0 ^ 2 + b.dt.getD i 0 * b.dt.getD (i + 1) 0 + b.dt.getD (i + 1) 0 ^ 2 ≤ Q * (b.dt.getD i 0 * b.dt.getD (i + 1) 0))
    (g c g' c' : K) (h : ModelFit b r g c) (h' : ModelFit { b with n := y } r g' c') : |g' - g| ≤ R * (1 / b.dt.getD r 0 + Q / δ) := by
  have hl : b.n.length = taus.length := by rw [hn, List.length_map]
  have hy' : y.length = b.n.length := by rw [hl, hy.length_eq]
  have := (C147_close b { b with n := y } hb (replaced_aligned hb hy') rfl r (by omega) δ Q R hδ (fun i h1 h2 => hgap i h1 (by omega)) (fun i h1 h2 => hQ i h1 (by omega)) g c g' c' h h').1 (fun i h1 h2 => by
    have hi : i < taus.length := by omega
    have hiy : i < y.length := by omega
    have hmem : taus[i] ∈ taus := List.getElem_mem hi
    obtain ⟨x, x1, x2⟩ := C104_msd hP ho atoms fw hat hfw hne axes hax hnd taus[i] (hτ _ hmem).1 (hτ _ hmem).2 γ hγf (hγ _ hmem)
    have hx := (List.forall₂_iff_get.1 hy).2 i hi hiy
    simp only [List.get_eq_getElem] at hx
    rw [x1] at hx
    have e1 : y.getD i 0 = x := by
      rw [List.getD_eq_getElem?_getD, List.getElem?_eq_getElem hiy]
      exact (Option.some.inj (Except.ok.inj hx)).symm
    have e2 : b.n.getD i 0 = reportedMsd axes.toFinset L u fw atoms F taus[i] := by
      rw [hn, List.getD_eq_getElem?_getD, List.getElem?_map, List.getElem?_eq_getElem hi]
      rfl
    show |y.getD i 0 - b.n.getD i 0| ≤ R
    rw [e1, e2]
    exact x2.trans (hR _ hmem))
  calc |g' - g| ≤ R / b.dt.getD r 0 + Q * R / δ := this
    _ = R * (1 / b.dt.getD r 0 + Q / δ) := by ring

def exStepsOne : PyM (Analyzer ℚ × Unit) := diffusionAnalyzer id (exOracle ℚ) () exUnc (fromAse exNum exParams exSelect 1 none (.one exStepsB))

/-- `C150_mean` in binary64: the MSD 5/3, 25/4, 10 of a trajectory, the first of which is rounded.  The gradients of the fits differ, by less than 1 / (2 · 10¹⁴); the gradient itself is 53/72. -/
example : ∃ Z : Analyzer ℚ, exStepsOne = .ok (Z, ()) ∧ ModelFit Z.diff 0 (53 / 72) (-11 / 4) ∧ fl64 (5 / 3) ≠ (5 / 3 : ℚ) ∧
    ModelFit { Z.diff with n := [fl64 (5 / 3), 25 / 4, 10] } 0 (53 / 72 - 2 / 15 * (fl64 (5 / 3) - 5 / 3)) (-11 / 4 + 9 / 5 * (fl64 (5 / 3) - 5 / 3)) ∧
    ∀ g c g' c', ModelFit Z.diff 0 g c → ModelFit { Z.diff with n := [fl64 (5 / 3), 25 / 4, 10] } 0 g' c' → |g' - g| ≤ 1 / (2 * 10 ^ 14) := by
  obtain ⟨Z, e, n, v, o, t⟩ := exSteps_values (x := exStepsOne) (y := [5 / 3, 25 / 4, 10]) (v := [26 / 45, 59 / 4, 36]) (n := [6, 3, 2]) (by decide +kernel)
  have k : exStepsOne.toOption.map (fun z => (z.1.deltaT, z.1.disp3d.map fun a => (a.n0, a.n1), z.1.disp3d.map fun a => meanFl fl64 seqOrder (dSquaredFl fl64 seqOrder [0, 1, 2] a))) =
      some ([6, 12, 18], [(2, 3), (2, 2), (2, 1)], [some (fl64 (5 / 3)), some (25 / 4), some 10]) := by decide +kernel
  rw [e] at k
  simp only [Except.toOption, Option.map_some, Option.some.injEq, Prod.mk.injEq] at k
  obtain ⟨k1, k2, k3⟩ := k
  obtain ⟨i₁, f₁⟩ := exModel_one (53 / 72) (-11 / 4) n o t rfl (by norm_num) (by decide +kernel)
  obtain ⟨i₂, f₂⟩ := exModel_one (b := { Z.diff with n := [fl64 (5 / 3), 25 / 4, 10] }) (y := [fl64 (5 / 3), 25 / 4, 10]) (53 / 72 - 2 / 15 * (fl64 (5 / 3) - 5 / 3)) (-11 / 4 + 9 / 5 * (fl64 (5 / 3) - 5 / 3)) rfl o t rfl (by decide +kernel) (by decide +kernel)
  refine ⟨Z, e, f₁, by decide +kernel, f₂, fun g c g' c' h h' => ?_⟩
  have two : ∀ {p : ℕ → Prop}, (∀ i < 2, p i) → ∀ i, 0 ≤ i → i + 1 < Z.diff.n.length → p i := fun hp i _ hi => hp i (by rw [n] at hi; exact Nat.lt_of_succ_lt_succ hi)
  have three : ∀ {p : ℕ → Prop}, (∀ i < 3, p i) → ∀ i, 0 ≤ i → i < Z.diff.n.length → p i := fun hp i _ hi => hp i (by rw [n] at hi; exact hi)
  refine (C150_mean exNum rfl exParams rfl (by decide +kernel) exSelect exStepsB ([], []) _ 1 (.inl ⟨rfl, rfl⟩) id (exOracle ℚ) exUnc rfl rfl () () Z e (by rw [k1]; decide +kernel) (by rw [k1]; decide +kernel)
    (relErr_of_rounding (by norm_num) rounding_fl64) (by norm_num) seqOrder_valid [0, 1, 2] (by decide) (by decide) (by decide +kernel) 9 ?_ [fl64 (5 / 3), 25 / 4, 10] (by rw [n]; rfl) ?_ 0 (by rw [n]; decide)
    (10 / 3) 6 (7 / 2) (by norm_num) (two (by rw [t]; decide +kernel)) (two (by rw [t]; decide +kernel)) (three (by rw [t, n]; decide +kernel)) g c g' c' h h').trans ?_
  · intro a ha
    have : (a.n0, a.n1) ∈ [(2, 3), (2, 2), (2, 1)] := by
      rw [← k2]
      exact List.mem_map_of_mem ha
    simp only [List.mem_cons, Prod.mk.injEq, List.not_mem_nil, or_false] at this
    rcases this with ⟨q1, q2⟩ | ⟨q1, q2⟩ | ⟨q1, q2⟩ <;> rw [q1, q2] <;> decide
  · intro i a hi ha
    have q : (Z.disp3d.map fun a => meanFl fl64 seqOrder (dSquaredFl fl64 seqOrder [0, 1, 2] a))[i]? = some (meanFl fl64 seqOrder (dSquaredFl fl64 seqOrder [0, 1, 2] a)) := by rw [List.getElem?_map, ha]; rfl
    rw [k3] at q
    rw [n] at hi
    have hi : i < 3 := hi
    interval_cases i <;> exact (Option.some.inj q).symm
  · rw [t]
    decide +kernel

/-- The MSD of the trajectory of `exFl_path` over one, two and three frames. -/
theorem exFl_values : ∀ τ ∈ [1, 2, 3], reportedMsd Finset.univ exFlBox exFlTrue [1] [0] 4 τ = exIncr [290954334890883762336166755057009 / 7922816251426433759354395033600, 4 * (290954334890883762336166755057009 / 7922816251426433759354395033600), 26 / 3 * (290954334890883762336166755057009 / 7922816251426433759354395033600)] (τ - 1) := by
  intro τ h
  simp only [List.mem_cons, List.not_mem_nil, or_false] at h
  rcases h with rfl | rfl | rfl <;> unfold reportedMsd lengthSq trueMove meanOver cart <;> decide +kernel

/-- `C150_path` in binary64, for the trajectory of `exFl_path`: the gradients differ by less than 10⁻⁶ (the MSD is about 37 at the first interval). -/
example (b : Boot ℚ) (hn : b.n = [1, 2, 3].map fun τ : ℕ => reportedMsd Finset.univ exFlBox exFlTrue [1] [0] 4 τ) (ho : b.nO = [6, 3, 2]) (ht : b.dt = [6, 12, 18]) :
    ∃ y₁ y₂ y₃ : ℚ, (∀ p ∈ ([(1, y₁), (2, y₂), (3, y₃)] : List (ℕ × ℚ)), msdFl fl64 (fun _ => .ok exFlInv64) seqOrder (storedCoords 4 2 exFlTrue exFlImages) (cells 5 fun _ => exFlBox) [1] [0] [0, 1, 2] p.1 = .ok (some p.2)) ∧
    ∀ g c g' c', ModelFit b 0 g c → ModelFit { b with n := [y₁, y₂, y₃] } 0 g' c' → |g' - g| ≤ 1 / 10 ^ 6 := by
  have hu : ([0, 1, 2] : List (Fin 3)).toFinset = Finset.univ := by decide
  have run : ∀ τ ∈ ([1, 2, 3] : List ℕ), ∃ r, msdFl fl64 (fun _ => .ok exFlInv64) seqOrder (storedCoords 4 2 exFlTrue exFlImages) (cells 5 fun _ => exFlBox) [1] [0] [0, 1, 2] τ = .ok (some r) := by
    intro τ hτ
    obtain ⟨r, hr, -⟩ := C104_msd exFl_path seqOrder_valid [0] [1] (by decide) (by decide) (by decide) [0, 1, 2] (by decide) (by decide) τ (by revert τ; decide) (by revert τ; decide) (1 / 10 ^ 14)
      (fun _ => by decide +kernel) (by revert τ; decide +kernel)
    exact ⟨r, hr⟩
  obtain ⟨y₁, h1⟩ := run 1 (by decide)
  obtain ⟨y₂, h2⟩ := run 2 (by decide)
  obtain ⟨y₃, h3⟩ := run 3 (by decide)
  refine ⟨y₁, y₂, y₃, fun p hp => by
    simp only [List.mem_cons, List.not_mem_nil, or_false] at hp
    rcases hp with rfl | rfl | rfl
    exacts [h1, h2, h3], fun g c g' c' h h' => ?_⟩
  have two : ∀ {p : ℕ → Prop}, (∀ i < 2, p i) → ∀ i, 0 ≤ i → i + 1 < [1, 2, 3].length → p i := fun hp i _ hi => hp i (by simp at hi; omega)
  have hn' : b.n = [290954334890883762336166755057009 / 7922816251426433759354395033600, 4 * (290954334890883762336166755057009 / 7922816251426433759354395033600), 26 / 3 * (290954334890883762336166755057009 / 7922816251426433759354395033600)] := by
    rw [hn]
    simp only [List.map_cons, List.map_nil, exFl_values 1 (by decide), exFl_values 2 (by decide), exFl_values 3 (by decide)]
    rfl
  obtain ⟨k, -⟩ := exModel_one (10 / 3 * (290954334890883762336166755057009 / 7922816251426433759354395033600) / 6) (-7 / 3 * (290954334890883762336166755057009 / 7922816251426433759354395033600)) hn' ho ht rfl (by norm_num) (by decide +kernel)
  refine (C150_path exFl_path seqOrder_valid [0] [1] (by decide) (by decide) (by decide) [0, 1, 2] (by decide) (by decide) [1, 2, 3] (by decide) (1 / 10 ^ 14) (fun _ => by decide +kernel) (by decide +kernel)
    (1 / 10 ^ 6) ?_ b k (by rw [hu]; exact hn) [y₁, y₂, y₃] (.cons h1 (.cons h2 (.cons h3 .nil))) 0 (by decide) 6 (7 / 2) (by norm_num) (two (by rw [ht]; decide +kernel)) (two (by rw [ht]; decide +kernel)) g c g' c' h h').trans ?_
  · intro τ hτ
    rw [hu, exFl_values τ hτ]
    unfold msdError dispError windowError driftError pathError stepError
    revert τ
    decide +kernel
  · rw [ht]
    decide +kernel

end Kinisi

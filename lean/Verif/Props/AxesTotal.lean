import Verif.Props.Axes

/-!
# C136: the total displacement in space and along the axes
-/

set_option linter.unusedSectionVars false
set_option linter.unusedVariables false

namespace Kinisi
open Spec
variable {K : Type} [Field K] [LinearOrder K] [IsStrictOrderedRing K] [FloorRing K] {G : Type}

/-- Every entry of the MSTD, whatever the numbers of observations: intervals with fewer than two observations of the total displacement have no entry. -/
theorem mstd_entries {sq : K → K} {o : Oracle K G} {opt : BootOpts K} (hblock : opt.block = false) {g g' : G} {deltaT : List K} {disp : List (Arr3 K)} {nO : List K} {d : String} {b : Boot K}
    (h : mstdBootstrap sq o opt g deltaT disp nO 1 d = .ok (b, g')) :
    b.v.length = b.n.length ∧ b.dt.length = b.n.length ∧ (∀ (i : ℕ) (t : K), b.dt[i]? = some t → deltaT[i]? = some t) ∧ (∃ q, b.nO = nO.take q ∧ b.n.length = q) ∧ b.dims = (axesOf d).card ∧
      (∀ i < b.n.length, i < disp.length / 2 ∧ ∃ a, disp[i]? = some a ∧ 2 ≤ a.n1 ∧ b.n[i]? = some (mstd (axesOf d) a)) ∧
      ∀ i, b.n.length ≤ i → i < disp.length / 2 → ∀ a, disp[i]? = some a → a.n1 ≤ 1 := by
  obtain ⟨b0, q, i1, hq, i2, hskip, b1, i4, i3⟩ := mstdBootstrap_inv h
  obtain ⟨ds, dts, sel, d0, j0, j2, j3, -, rfl⟩ := bootInit_inv i1
  rw [pyStride_one] at j0 j2
  obtain rfl := Except.ok.inj j0
  obtain rfl := Except.ok.inj j2
  obtain ⟨k1, k2, k3⟩ := dimensionSlice_axes j3
  dsimp only at hq hskip
  refine ⟨by rw [i2.lv, i2.ln], by rw [i2.ldt, i2.ln], fun i t hit => ?_, ⟨q, by rw [i3], i2.ln⟩, ?_, fun i hi => ?_, fun i hi hi' a ha => ?_⟩
  · have hk : i < q := by rw [← i2.ldt]; exact (List.getElem?_eq_some_iff.1 hit).1
    obtain ⟨a, l, m, w, t', -, -, -, -, e5, -, -, -, -, e10, -⟩ := i2.entry i hk
    rw [hit] at e10
    rw [Option.some.inj e10]
    exact e5
  · rw [i3]
    show b1.dims = _
    rw [show b1.dims = dimensionDims d from congrArg Boot.dims i4]
    rw [← k2, List.toFinset_card_of_nodup k1, k3]
  · rw [i2.ln] at hi
    obtain ⟨a, l, m, w, t, e1, e2, e3, e4, e5, e6, -⟩ := i2.entry i hi
    obtain rfl := Except.ok.inj e2
    dsimp only at e1 e3 e4
    rw [collMotion_length] at e3
    unfold Estimate at e4
    rw [hblock] at e4
    obtain ⟨no, f1, f2, f3⟩ := e4
    rw [collMotion_eq k1, npMean_range _ e3, k2] at f2
    refine ⟨by omega, a, e1, by omega, ?_⟩
    rw [e6, ← Option.some.inj f2]
    simp [meanOn, mstd, sqSum]
  · obtain ⟨a', l, e1, e2, e3⟩ := hskip i (by rw [← i2.ln]; exact hi) hi'
    obtain rfl := Except.ok.inj e2
    rw [collMotion_length] at e3
    dsimp only at e1
    rw [ha] at e1
    obtain rfl := Option.some.inj e1
    omega

theorem mstd_axes_lengths {sq : K → K} {o : Oracle K G} {opt : BootOpts K} (hblock : opt.block = false) {g g₁ g₂ : G} {deltaT : List K} {disp : List (Arr3 K)} {nO : List K} {d d' : String} {b b' : Boot K}
    (h : mstdBootstrap sq o opt g deltaT disp nO 1 d = .ok (b, g₁)) (h' : mstdBootstrap sq o opt g deltaT disp nO 1 d' = .ok (b', g₂)) : b.n.length = b'.n.length := by
  obtain ⟨-, -, -, -, -, e, s⟩ := mstd_entries hblock h
  obtain ⟨-, -, -, -, -, e', s'⟩ := mstd_entries hblock h'
  apply le_antisymm
  · by_contra hc
    obtain ⟨f0, a, f1, f2, -⟩ := e b'.n.length (by omega)
    have := s' _ (le_refl _) f0 a f1
    omega
  · by_contra hc
    obtain ⟨f0, a, f1, f2, -⟩ := e' b.n.length (by omega)
    have := s _ (le_refl _) f0 a f1
    omega

/-- **C29, additivity.** When the axes of `d` are the disjoint union of those of `d₁` and `d₂`, the MSTD along `d` is the sum. -/
theorem C29_additive (sq : K → K) (o : Oracle K G) (opt : BootOpts K) (hblock : opt.block = false) (g g₀ g₁ g₂ : G) (deltaT : List K) (disp : List (Arr3 K)) (nO : List K) (d d₁ d₂ : String)
    (b b₁ b₂ : Boot K) (hu : axesOf d = axesOf d₁ ∪ axesOf d₂) (hdisj : Disjoint (axesOf d₁) (axesOf d₂)) (h : mstdBootstrap sq o opt g deltaT disp nO 1 d = .ok (b, g₀))
    (h₁ : mstdBootstrap sq o opt g deltaT disp nO 1 d₁ = .ok (b₁, g₁)) (h₂ : mstdBootstrap sq o opt g deltaT disp nO 1 d₂ = .ok (b₂, g₂)) :
    b.n = List.zipWith (fun x y => x + y) b₁.n b₂.n := by
  have l1 := mstd_axes_lengths hblock h h₁
  have l2 := mstd_axes_lengths hblock h h₂
  obtain ⟨-, -, -, -, -, e, -⟩ := mstd_entries hblock h
  obtain ⟨-, -, -, -, -, e₁, -⟩ := mstd_entries hblock h₁
  obtain ⟨-, -, -, -, -, e₂, -⟩ := mstd_entries hblock h₂
  apply List.ext_getElem?
  intro i
  rw [List.getElem?_zipWith]
  by_cases hi : i < b.n.length
  · obtain ⟨-, a, f1, f2, f3⟩ := e i hi
    obtain ⟨-, a₁, f1₁, -, f3₁⟩ := e₁ i (by omega)
    obtain ⟨-, a₂, f1₂, -, f3₂⟩ := e₂ i (by omega)
    rw [f1] at f1₁ f1₂
    obtain rfl := Option.some.inj f1₁
    obtain rfl := Option.some.inj f1₂
    rw [f3, f3₁, f3₂]
    simp only [Option.some.injEq]
    unfold mstd
    rw [hu, ← add_div, ← Finset.sum_add_distrib]
    congr 1
    apply Finset.sum_congr rfl
    intro k _
    rw [Finset.sum_union hdisj]
  · rw [List.getElem?_eq_none (by omega), List.getElem?_eq_none (show b₁.n.length ≤ i by omega)]

/-- **C136 for the total displacement, what holds.** As `C136_no_intercept_partial`, for the MSTD: without intercept the gradients of highest likelihood, and with them the collective diffusion
coefficient times the dimensions, add up over disjoint sets of axes.  All starting points, no blocking.  Missing: fits with an intercept. -/
theorem C136_total_no_intercept_partial (sq : K → K) (o : Oracle K G) (opt : BootOpts K) (hblock : opt.block = false) (γ γ₀ γ₁ γ₂ : G) (deltaT : List K) (disp : List (Arr3 K)) (nO : List K)
    (d d₁ d₂ : String) (hu : axesOf d = axesOf d₁ ∪ axesOf d₂) (hdisj : Disjoint (axesOf d₁) (axesOf d₂)) (b b₁ b₂ : Boot K)
    (h : mstdBootstrap sq o opt γ deltaT disp nO 1 d = .ok (b, γ₀)) (h₁ : mstdBootstrap sq o opt γ deltaT disp nO 1 d₁ = .ok (b₁, γ₁))
    (h₂ : mstdBootstrap sq o opt γ deltaT disp nO 1 d₂ = .ok (b₂, γ₂)) (κ : K) (hκ : ∀ (k : ℕ) (t N : K), deltaT[k]? = some t → nO[k]? = some N → N * t = κ)
    (hn : ∀ N ∈ nO, 0 < N) (ht : ∀ t ∈ deltaT, 0 < t) (r m : ℕ) (hm : m + 1 = b.n.length - r) (P P₁ P₂ : Matrix (Fin (m + 1)) (Fin (m + 1)) K) (hP : FitWeights b r P)
    (hP₁ : FitWeights b₁ r P₁) (hP₂ : FitWeights b₂ r P₂)
    (hv : ∀ x ∈ [b, b₁, b₂], ∀ i, r ≤ i → i < x.n.length → ∃ y, x.v[i]? = some (some y) ∧ 0 < y) (ld ld₁ ld₂ g g₁ g₂ best best₁ best₂ : K)
    (hg : BestRay (fitLL b r ld P) g best) (hg₁ : BestRay (fitLL b₁ r ld₁ P₁) g₁ best₁) (hg₂ : BestRay (fitLL b₂ r ld₂ P₂) g₂ best₂) :
    b.dims = b₁.dims + b₂.dims ∧ g = g₁ + g₂ := by
  have hadd := C29_additive sq o opt hblock γ γ₀ γ₁ γ₂ deltaT disp nO d d₁ d₂ b b₁ b₂ hu hdisj h h₁ h₂
  have l1 := mstd_axes_lengths hblock h h₁
  have l2 := mstd_axes_lengths hblock h h₂
  have use : ∀ {x : Boot K} {s : String} {γ' : G} {Q : Matrix (Fin (m + 1)) (Fin (m + 1)) K} {l e best : K}, mstdBootstrap sq o opt γ deltaT disp nO 1 s = .ok (x, γ') → x ∈ [b, b₁, b₂] →
      FitWeights x r Q → m + 1 = x.n.length - r → BestRay (fitLL x r l Q) e best → ∃ t y, deltaT[r]? = some t ∧ x.n[r]? = some y ∧ e = y / t := by
    intro x s γ' Q l e best hb hx hQ hmx hbest
    obtain ⟨hl, hd, hdt, ⟨q, hq, hq'⟩, -, hent, -⟩ := mstd_entries hblock hb
    have hdt' : ∀ t ∈ x.dt, 0 < t := by
      intro t htm
      obtain ⟨i, hi, rfl⟩ := List.getElem_of_mem htm
      exact ht _ (List.mem_of_getElem? (hdt i _ (List.getElem?_eq_getElem hi)))
    have hy : ∀ y ∈ x.n, 0 ≤ y := by
      intro y hym
      obtain ⟨i, hi, rfl⟩ := List.getElem_of_mem hym
      obtain ⟨-, a, -, -, f3⟩ := hent i hi
      rw [List.getElem?_eq_getElem hi] at f3
      rw [Option.some.inj f3]
      unfold mstd
      positivity
    have := (fit_ray hQ hmx hl hd (hv x hx) (fun N hN => hn N (by rw [hq] at hN; exact List.mem_of_mem_take hN)) κ
      (fun k t N h1 h2 => hκ k t N (hdt k t h1) (by
        rw [hq, List.getElem?_take] at h2
        split_ifs at h2
        exact h2)) hdt' hy l e).1 ⟨best, hbest⟩
    have hr : r < x.n.length := by omega
    refine ⟨x.dt[r], x.n[r], hdt r _ (List.getElem?_eq_getElem (by omega)), List.getElem?_eq_getElem hr, ?_⟩
    rw [this, List.getD_eq_getElem?_getD, List.getD_eq_getElem?_getD, List.getElem?_eq_getElem hr, List.getElem?_eq_getElem (by omega)]
    rfl
  obtain ⟨-, -, -, -, a5, -⟩ := mstd_entries hblock h
  obtain ⟨-, -, -, -, b5, -⟩ := mstd_entries hblock h₁
  obtain ⟨-, -, -, -, c5, -⟩ := mstd_entries hblock h₂
  refine ⟨by rw [a5, b5, c5, hu, Finset.card_union_of_disjoint hdisj], ?_⟩
  obtain ⟨t, y, u1, u2, rfl⟩ := use h (by simp) hP hm hg
  obtain ⟨t', y₁, v1, v2, rfl⟩ := use h₁ (by simp) hP₁ (by omega) hg₁
  obtain ⟨t'', y₂, w1, w2, rfl⟩ := use h₂ (by simp) hP₂ (by omega) hg₂
  rw [u1] at v1 w1
  obtain rfl := Option.some.inj v1
  obtain rfl := Option.some.inj w1
  rw [hadd, List.getElem?_zipWith, v2, w2] at u2
  rw [← Option.some.inj u2, add_div]

/-! ## Two atoms observed for five steps -/

/-- Two atoms: steps of the first (1, 0), (0, 0), (2, 1), (1, 3), (0, 0), of the second (0, 0), (1, 1), (-1, 0), (2, 1), (0, -1); displacements over one to five steps. -/
def exTotalMoves : List (Arr3 ℚ) :=
  (List.range 5).map fun τ => ⟨2, 5 - τ, fun i k =>
    ![∑ s ∈ Finset.range (τ + 1), ([[1, 0, 2, 1, 0], [0, 1, -1, 2, 0]].getD i []).getD (k + s) 0, ∑ s ∈ Finset.range (τ + 1), ([[0, 0, 1, 3, 0], [0, 1, 0, 1, -1]].getD i []).getD (k + s) 0, 0]⟩

def exTotalRun (d : String) : PyM (Boot ℚ × Unit) := mstdBootstrap (fun _ => 0) (exOracle ℚ) (exOpts ℚ) () [1, 2, 3, 4, 5] exTotalMoves [5, 5 / 2, 5 / 3, 5 / 4, 1] 1 d

/-- The inverse of the covariance matrix with the variances `a` and `b`, the second interval having half the observations of the first. -/
def exTotalP (a b : ℚ) : Matrix (Fin 2) (Fin 2) ℚ := !![b / (a * (b - 4 * a)), -2 / (b - 4 * a); -2 / (b - 4 * a), 1 / (b - 4 * a)]

theorem exTotal_ray {d : String} {y : List ℚ} {a c : ℚ} (h : ((exTotalRun d).toOption.map fun r => (r.1.n, r.1.v)) = some (y, [a, c].map some) ∧
      ((exTotalRun d).toOption.map fun r => (r.1.nO, r.1.dt)) = some ([5, 5 / 2], [1, 2])) (ha : 0 < a) (hc : 4 * a < c) (hy : y.length = 2) (hy0 : ∀ z ∈ y, 0 ≤ z)
    (hA : (populateCovariance ([a, c].map some) [5, 5 / 2]).toOption = some (rowsOf !![a, 2 * a; 2 * a, c])) (hAP : !![a, 2 * a; 2 * a, c] * exTotalP a c = 1) :
    ∃ b, exTotalRun d = .ok (b, ()) ∧ b.n = y ∧ FitWeights b 0 (exTotalP a c) ∧ (∃ best, BestRay (fitLL b 0 0 (exTotalP a c)) (y.getD 0 0) best) ∧
      ∀ i, 0 ≤ i → i < b.n.length → ∃ z, b.v[i]? = some (some z) ∧ 0 < z := by
  obtain ⟨h1, h2⟩ := h
  cases e : exTotalRun d with
  | error e' => rw [e] at h1; cases h1
  | ok r =>
    rw [e] at h1 h2
    have h1 := Option.some.inj h1
    have h2 := Option.some.inj h2
    simp only [Prod.mk.injEq] at h1 h2
    obtain ⟨n1, v1⟩ := h1
    obtain ⟨o1, d1⟩ := h2
    have hP : FitWeights r.1 0 (exTotalP a c) := by
      refine ⟨!![a, 2 * a; 2 * a, c], by rw [v1, o1]; exact ok_of_toOption hA, hAP⟩
    have hv : ∀ i, 0 ≤ i → i < r.1.n.length → ∃ z, r.1.v[i]? = some (some z) ∧ 0 < z := by
      intro i _ hi
      rw [n1, hy] at hi
      rw [v1]
      have : 0 < c := by linarith
      interval_cases i
      · exact ⟨a, rfl, ha⟩
      · exact ⟨c, rfl, this⟩
    refine ⟨r.1, rfl, n1, hP, ?_, hv⟩
    refine (fit_ray hP (by rw [n1, hy]) (by rw [n1, v1, hy]; rfl) (by rw [n1, d1, hy]; rfl) hv (by rw [o1]; decide +kernel) 5 ?_ (by rw [d1]; decide +kernel) (by rw [n1]; exact hy0) 0 _).2
      (by rw [n1, d1]; simp)
    intro k t N ht hN
    rw [d1] at ht
    rw [o1] at hN
    match k, ht, hN with
    | 0, ht, hN => obtain rfl := Option.some.inj ht; obtain rfl := Option.some.inj hN; decide +kernel
    | 1, ht, hN => obtain rfl := Option.some.inj ht; obtain rfl := Option.some.inj hN; decide +kernel

/-- `C29_additive` and `C136_total_no_intercept_partial` on these atoms: the total displacement has the MSTD 31/5, 18 in the plane, 12/5, 33/4 along x and 19/5, 39/4 along y; the best rays have the
gradients 31/5 = 12/5 + 19/5. -/
example : ∃ (b b₁ b₂ : Boot ℚ), exTotalRun "xy" = .ok (b, ()) ∧ exTotalRun "x" = .ok (b₁, ()) ∧ exTotalRun "y" = .ok (b₂, ()) ∧ b.n = List.zipWith (fun x y => x + y) b₁.n b₂.n ∧
    b.n = [31 / 5, 18] ∧ FitWeights b 0 (exTotalP (1107 / 25) (1064 / 5)) ∧ ∀ g best, BestRay (fitLL b 0 0 (exTotalP (1107 / 25) (1064 / 5))) g best → g = 12 / 5 + 19 / 5 := by
  obtain ⟨b, e, n, p, ⟨best, r⟩, w⟩ := exTotal_ray (d := "xy") (y := [31 / 5, 18]) (a := 1107 / 25) (c := 1064 / 5) (by decide +kernel) (by norm_num) (by norm_num) rfl
    (by decide +kernel) (by decide +kernel) (by decide +kernel)
  obtain ⟨b₁, e₁, n₁, p₁, ⟨best₁, r₁⟩, w₁⟩ := exTotal_ray (d := "x") (y := [12 / 5, 33 / 4]) (a := 138 / 25) (c := 129 / 5) (by decide +kernel) (by norm_num) (by norm_num) rfl
    (by decide +kernel) (by decide +kernel) (by decide +kernel)
  obtain ⟨b₂, e₂, n₂, p₂, ⟨best₂, r₂⟩, w₂⟩ := exTotal_ray (d := "y") (y := [19 / 5, 39 / 4]) (a := 467 / 25) (c := 457 / 5) (by decide +kernel) (by norm_num) (by norm_num) rfl
    (by decide +kernel) (by decide +kernel) (by decide +kernel)
  refine ⟨b, b₁, b₂, e, e₁, e₂, C29_additive _ _ _ rfl _ _ _ _ _ _ _ "xy" "x" "y" _ _ _ (by decide +kernel) (by decide +kernel) e e₁ e₂, n, p, fun g best' hg => ?_⟩
  refine (C136_total_no_intercept_partial _ _ _ rfl _ _ _ _ _ _ _ "xy" "x" "y" (by decide +kernel) (by decide +kernel) b b₁ b₂ e e₁ e₂ 5 ?_ (by decide +kernel) (by decide +kernel) 0 1
    (by rw [n]; rfl) _ _ _ p p₁ p₂ ?_ 0 0 0 g _ _ best' best₁ best₂ hg r₁ r₂).2
  · intro k t N ht hN
    match k, ht, hN with
    | 0, ht, hN => obtain rfl := Option.some.inj ht; obtain rfl := Option.some.inj hN; decide +kernel
    | 1, ht, hN => obtain rfl := Option.some.inj ht; obtain rfl := Option.some.inj hN; decide +kernel
    | 2, ht, hN => obtain rfl := Option.some.inj ht; obtain rfl := Option.some.inj hN; decide +kernel
    | 3, ht, hN => obtain rfl := Option.some.inj ht; obtain rfl := Option.some.inj hN; decide +kernel
    | 4, ht, hN => obtain rfl := Option.some.inj ht; obtain rfl := Option.some.inj hN; decide +kernel
  · intro x hx
    simp only [List.mem_cons, List.not_mem_nil, or_false] at hx
    rcases hx with rfl | rfl | rfl
    · exact w
    · exact w₁
    · exact w₂

end Kinisi

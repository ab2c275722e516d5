import Verif.Props.Precision

/-!
# C136: the diffusion coefficient in space and along the axes
-/

set_option linter.unusedSectionVars false
set_option linter.unusedVariables false

namespace Kinisi
open Spec
variable {K : Type} [Field K] [LinearOrder K] [IsStrictOrderedRing K] [FloorRing K] {G : Type}

/-- `P` are the weights of a fit of `b` from position `r` on, with measured variances and without conditioning: the inverse of the matrix built. -/
def FitWeights (b : Boot K) (r : ℕ) {m : ℕ} (P : Matrix (Fin m) (Fin m) K) : Prop :=
  ∃ A : Matrix (Fin m) (Fin m) K, populateCovariance (b.v.drop r) (b.nO.drop r) = .ok (rowsOf A) ∧ A * P = 1

/-- The log-likelihood of a fit of `b` from position `r` on. -/
def fitLL (b : Boot K) (r : ℕ) {m : ℕ} (ld : K) (P : Matrix (Fin m) (Fin m) K) : List K → Option K :=
  logLikelihood ld P (fun i => (b.dt.drop r).getD i 0) (fun i => (b.n.drop r).getD i 0)

/-- The matrix of a fit as sequences. -/
theorem cov_sequences {b : Boot K} {r m : ℕ} {A : Matrix (Fin m) (Fin m) K} (hA : populateCovariance (b.v.drop r) (b.nO.drop r) = .ok (rowsOf A)) (hm : m = b.n.length - r) (hl : b.v.length = b.n.length)
    (hv : ∀ i, r ≤ i → i < b.n.length → ∃ x, b.v[i]? = some (some x) ∧ 0 < x) (hn : ∀ N ∈ b.nO, 0 < N) :
    ∃ (v n : ℕ → K) (extra : List K),
      populateCovariance (List.ofFn fun i : Fin m => some (v i)) ((List.ofFn fun i : Fin m => n i) ++ extra) = .ok (rowsOf A) ∧
      (∀ i < m, b.v[r + i]? = some (some (v i)) ∧ 0 < v i ∧ b.nO[r + i]? = some (n i) ∧ 0 < n i) := by
  refine ⟨fun i => (b.v[r + i]?.getD none).getD 0, fun i => b.nO.getD (r + i) 0, (b.nO.drop r).drop m, ?_⟩
  have gv : ∀ i < m, b.v[r + i]? = some (some ((b.v[r + i]?.getD none).getD 0)) ∧ 0 < (b.v[r + i]?.getD none).getD 0 := by
    intro i hi
    obtain ⟨x, hx, h0⟩ := hv (r + i) (by omega) (by omega)
    rw [hx]
    exact ⟨rfl, h0⟩
  have hnl : m ≤ (b.nO.drop r).length := by
    by_contra hc
    rw [C40_short _ _ (by simp only [List.length_drop] at hc ⊢; omega)] at hA
    cases hA
  rw [List.length_drop] at hnl
  have gn : ∀ i < m, b.nO[r + i]? = some (b.nO.getD (r + i) 0) := fun i hi => by
    rw [List.getD_eq_getElem?_getD, List.getElem?_eq_getElem (by omega)]; rfl
  have e1 : b.v.drop r = List.ofFn fun i : Fin m => some ((b.v[r + i.val]?.getD none).getD 0) := by
    apply List.ext_getElem?
    intro i
    rw [List.getElem?_ofFn, List.getElem?_drop]
    by_cases hi : i < m
    · rw [dif_pos hi]; exact (gv i hi).1
    · rw [dif_neg hi, List.getElem?_eq_none (by omega)]
  have e2 : b.nO.drop r = (List.ofFn fun i : Fin m => b.nO.getD (r + i.val) 0) ++ (b.nO.drop r).drop m := by
    conv_lhs => rw [← List.take_append_drop m (b.nO.drop r)]
    congr 1
    apply List.ext_getElem?
    intro i
    rw [List.getElem?_take, List.getElem?_ofFn]
    by_cases hi : i < m
    · rw [if_pos hi, dif_pos hi, List.getElem?_drop]; exact gn i hi
    · rw [if_neg hi, dif_neg hi]
  rw [e1, e2] at hA
  exact ⟨hA, fun i hi => ⟨(gv i hi).1, (gv i hi).2, gn i hi, hn _ (List.mem_of_getElem? (gn i hi))⟩⟩

/-- The data of a fit as sequences. -/
theorem fit_sequences {b : Boot K} {r m : ℕ} {P : Matrix (Fin m) (Fin m) K} (hP : FitWeights b r P) (hm : m = b.n.length - r) (hl : b.v.length = b.n.length)
    (hv : ∀ i, r ≤ i → i < b.n.length → ∃ x, b.v[i]? = some (some x) ∧ 0 < x) (hn : ∀ N ∈ b.nO, 0 < N) :
    ∃ A : Matrix (Fin m) (Fin m) K, A * P = 1 ∧ ∃ (v n : ℕ → K) (extra : List K),
      populateCovariance (List.ofFn fun i : Fin m => some (v i)) ((List.ofFn fun i : Fin m => n i) ++ extra) = .ok (rowsOf A) ∧
      (∀ i < m, b.v[r + i]? = some (some (v i)) ∧ 0 < v i ∧ b.nO[r + i]? = some (n i) ∧ 0 < n i) := by
  obtain ⟨A, hA, hAP⟩ := hP
  exact ⟨A, hAP, cov_sequences hA hm hl hv hn⟩

/-- Without intercept: the best line goes through the first fitted value. -/
theorem fit_ray {b : Boot K} {r m : ℕ} {P : Matrix (Fin (m + 1)) (Fin (m + 1)) K} (hP : FitWeights b r P) (hm : m + 1 = b.n.length - r) (hl : b.v.length = b.n.length)
    (hd : b.dt.length = b.n.length) (hv : ∀ i, r ≤ i → i < b.n.length → ∃ x, b.v[i]? = some (some x) ∧ 0 < x) (hn : ∀ N ∈ b.nO, 0 < N) (κ : K)
    (hκ : ∀ (k : ℕ) (t N : K), b.dt[k]? = some t → b.nO[k]? = some N → N * t = κ) (ht : ∀ t ∈ b.dt, 0 < t) (hy : ∀ y ∈ b.n, 0 ≤ y) (ld g : K) :
    (∃ best, BestRay (fitLL b r ld P) g best) ↔ g = b.n.getD r 0 / b.dt.getD r 0 := by
  obtain ⟨A, hAP, v, n, extra, hA, h⟩ := fit_sequences hP hm hl hv hn
  have gt : ∀ i < m + 1, b.dt[r + i]? = some ((b.dt.drop r).getD i 0) := fun i hi => by
    rw [List.getD_eq_getElem?_getD, List.getElem?_drop, List.getElem?_eq_getElem (by omega)]; rfl
  have gy : ∀ i < m + 1, b.n[r + i]? = some ((b.n.drop r).getD i 0) := fun i hi => by
    rw [List.getD_eq_getElem?_getD, List.getElem?_drop, List.getElem?_eq_getElem (by omega)]; rfl
  have := (C134_first_interval v n (fun i => (b.dt.drop r).getD i 0) (fun i => (b.n.drop r).getD i 0) (fun i hi => (h i hi).2.2.2) extra A P hA hAP ld κ
    (fun i hi => hκ _ _ _ (gt i hi) (h i hi).2.2.1)).2 (ht _ (List.mem_of_getElem? (gt 0 (by omega)))) (hy _ (List.mem_of_getElem? (gy 0 (by omega)))) (h 0 (by omega)).2.1 g
  unfold fitLL
  rw [this]
  simp only [List.getD_eq_getElem?_getD, List.getElem?_drop, add_zero]

/-- **C136, what holds.** Two disjoint sets of axes that together are those of `d` (for example `xy` and `z` for `xyz`).  The numbers of dimensions add up, and in fits without intercept from the same
interval on so do the gradients of highest likelihood: `D` times the dimensions is additive, and `D` in space is the mean of `D` along the axes.  All starting points, no blocking.
Missing: with an intercept the gradients do not add up. -/
theorem C136_no_intercept_partial (sq : K → K) (o : Oracle K G) (opt : BootOpts K) (hblock : opt.block = false) (γ γ₀ γ₁ γ₂ : G) (deltaT : List K) (disp : List (Arr3 K)) (nO : List K)
    (d d₁ d₂ : String) (hu : axesOf d = axesOf d₁ ∪ axesOf d₂) (hdisj : Disjoint (axesOf d₁) (axesOf d₂)) (b b₁ b₂ : Boot K)
    (h : msdBootstrap sq o opt γ deltaT disp nO 1 d = .ok (b, γ₀)) (h₁ : msdBootstrap sq o opt γ deltaT disp nO 1 d₁ = .ok (b₁, γ₁))
    (h₂ : msdBootstrap sq o opt γ deltaT disp nO 1 d₂ = .ok (b₂, γ₂)) (κ : K) (hκ : ∀ (k : ℕ) (t N : K), deltaT[k]? = some t → nO[k]? = some N → N * t = κ)
    (hn : ∀ N ∈ nO, 0 < N) (ht : ∀ t ∈ deltaT, 0 < t) (r m : ℕ) (hm : m + 1 = b.n.length - r) (P P₁ P₂ : Matrix (Fin (m + 1)) (Fin (m + 1)) K) (hP : FitWeights b r P)
    (hP₁ : FitWeights b₁ r P₁) (hP₂ : FitWeights b₂ r P₂)
    (hv : ∀ x ∈ [b, b₁, b₂], ∀ i, r ≤ i → i < x.n.length → ∃ y, x.v[i]? = some (some y) ∧ 0 < y) (ld ld₁ ld₂ g g₁ g₂ best best₁ best₂ : K)
    (hg : BestRay (fitLL b r ld P) g best) (hg₁ : BestRay (fitLL b₁ r ld₁ P₁) g₁ best₁) (hg₂ : BestRay (fitLL b₂ r ld₂ P₂) g₂ best₂) :
    b.dims = b₁.dims + b₂.dims ∧ g = g₁ + g₂ := by
  have hadd := C28_additive sq o opt hblock γ γ₀ γ₁ γ₂ deltaT disp nO 1 d d₁ d₂ b b₁ b₂ hu hdisj h h₁ h₂
  have facts : ∀ {x : Boot K} {e : String} {γ' : G}, msdBootstrap sq o opt γ deltaT disp nO 1 e = .ok (x, γ') →
      x.v.length = x.n.length ∧ x.dt.length = x.n.length ∧ (∀ (i : ℕ) (t : K), x.dt[i]? = some t → deltaT[i]? = some t) ∧ (∃ q, x.nO = nO.take q ∧ x.n.length = q) ∧ x.dims = (axesOf e).card ∧
      (∀ y ∈ x.n, 0 ≤ y) := by
    intro x e γ' hx
    have hnn := C28_nonneg sq o opt hblock γ γ' deltaT disp nO 1 e x hx
    obtain ⟨b0, q, i1, -, i2, -, b1, i4, i3⟩ := msdBootstrap_inv hx
    obtain ⟨ds, dts, sel, d0, j1, j2, j3, -, rfl⟩ := bootInit_inv i1
    rw [pyStride_one] at j2
    obtain rfl := Except.ok.inj j2
    refine ⟨by rw [i2.lv, i2.ln], by rw [i2.ldt, i2.ln], fun i t hit => ?_, ⟨q, by rw [i3], i2.ln⟩, ?_, hnn⟩
    · have hk : i < q := by rw [← i2.ldt]; exact (List.getElem?_eq_some_iff.1 hit).1
      obtain ⟨a, l, m, w, t', -, -, -, -, e5, -, -, -, -, e10, -⟩ := i2.entry i hk
      rw [hit] at e10
      rw [Option.some.inj e10]
      exact e5
    · obtain ⟨k1, k2, k3⟩ := dimensionSlice_axes j3
      rw [i3]
      show b1.dims = _
      rw [show b1.dims = dimensionDims e from congrArg Boot.dims i4]
      rw [← k2, List.toFinset_card_of_nodup k1, k3]
  obtain ⟨a1, a2, a3, ⟨q, a4, a4'⟩, a5, a6⟩ := facts h
  obtain ⟨b1, b2, b3, ⟨q₁, b4, b4'⟩, b5, b6⟩ := facts h₁
  obtain ⟨c1, c2, c3, ⟨q₂, c4, c4'⟩, c5, c6⟩ := facts h₂
  refine ⟨by rw [a5, b5, c5, hu, Finset.card_union_of_disjoint hdisj], ?_⟩
  have use : ∀ {x : Boot K} {Q : Matrix (Fin (m + 1)) (Fin (m + 1)) K} {l e best : K}, x ∈ [b, b₁, b₂] → FitWeights x r Q → m + 1 = x.n.length - r → x.v.length = x.n.length →
      x.dt.length = x.n.length → (∀ (i : ℕ) (t : K), x.dt[i]? = some t → deltaT[i]? = some t) → (∃ q, x.nO = nO.take q ∧ x.n.length = q) → (∀ y ∈ x.n, 0 ≤ y) → BestRay (fitLL x r l Q) e best →
      ∃ t y, deltaT[r]? = some t ∧ x.n[r]? = some y ∧ e = y / t := by
    intro x Q l e best hx hQ hmx hl hd hdt ⟨q, hq, hq'⟩ hy hb
    have hdt' : ∀ t ∈ x.dt, 0 < t := by
      intro t htm
      obtain ⟨i, hi, rfl⟩ := List.getElem_of_mem htm
      exact ht _ (List.mem_of_getElem? (hdt i _ (List.getElem?_eq_getElem hi)))
    have := (fit_ray hQ hmx hl hd (hv x hx) (fun N hN => hn N (by rw [hq] at hN; exact List.mem_of_mem_take hN)) κ
      (fun k t N h1 h2 => hκ k t N (hdt k t h1) (by
        rw [hq, List.getElem?_take] at h2
        split_ifs at h2
        exact h2)) hdt' hy l e).1 ⟨best, hb⟩
    have hr : r < x.n.length := by omega
    refine ⟨x.dt[r], x.n[r], hdt r _ (List.getElem?_eq_getElem (by omega)), List.getElem?_eq_getElem hr, ?_⟩
    rw [this, List.getD_eq_getElem?_getD, List.getD_eq_getElem?_getD, List.getElem?_eq_getElem hr, List.getElem?_eq_getElem (by omega)]
    rfl
  have hlen : b.n.length = min b₁.n.length b₂.n.length := by rw [hadd, List.length_zipWith]
  obtain ⟨l1, l2⟩ : b₁.n.length = b.n.length ∧ b₂.n.length = b.n.length := by
    have e : ∀ {x y : Boot K} {s s' : String} {γ' γ'' : G}, msdBootstrap sq o opt γ deltaT disp nO 1 s = .ok (x, γ') → msdBootstrap sq o opt γ deltaT disp nO 1 s' = .ok (y, γ'') →
        x.n.length ≤ y.n.length := by
      intro x y s s' γ' γ'' hx hy
      obtain ⟨ds, dts, u1, -, -, u2, -⟩ := C28_msd sq o opt hblock γ γ' deltaT disp nO 1 s x hx
      obtain ⟨ds', dts', w1, -, -, -, w2⟩ := C28_msd sq o opt hblock γ γ'' deltaT disp nO 1 s' y hy
      rw [u1] at w1
      obtain rfl := Except.ok.inj w1
      by_contra hc
      obtain ⟨a, f1, f2, -⟩ := u2 y.n.length (by omega)
      have := w2 _ (le_refl _) a f1
      omega
    exact ⟨le_antisymm (e h₁ h) (e h h₁), le_antisymm (e h₂ h) (e h h₂)⟩
  obtain ⟨t, y, u1, u2, rfl⟩ := use (by simp) hP hm a1 a2 a3 ⟨q, a4, a4'⟩ a6 hg
  obtain ⟨t', y₁, v1, v2, rfl⟩ := use (by simp) hP₁ (by omega) b1 b2 b3 ⟨q₁, b4, b4'⟩ b6 hg₁
  obtain ⟨t'', y₂, w1, w2, rfl⟩ := use (by simp) hP₂ (by omega) c1 c2 c3 ⟨q₂, c4, c4'⟩ c6 hg₂
  rw [u1] at v1 w1
  obtain rfl := Option.some.inj v1
  obtain rfl := Option.some.inj w1
  rw [hadd, List.getElem?_zipWith, v2, w2] at u2
  rw [← Option.some.inj u2, add_div]

/-! ## Two atoms observed for three steps -/

/-- Two atoms: the first takes the steps (0, -2), (1, -1), (0, 2), the second (-2, 2), (-2, 2), (0, 2); all displacements over one, two and three steps. -/
def exAxisMoves : List (Arr3 ℚ) :=
  [⟨2, 3, fun i k => ![([[0, 1, 0], [-2, -2, 0]].getD i []).getD k 0, ([[-2, -1, 2], [2, 2, 2]].getD i []).getD k 0, 0]⟩,
   ⟨2, 2, fun i k => ![([[1, 1], [-4, -2]].getD i []).getD k 0, ([[-3, 1], [4, 4]].getD i []).getD k 0, 0]⟩,
   ⟨2, 1, fun i k => ![([[1], [-4]].getD i []).getD k 0, ([[-1], [6]].getD i []).getD k 0, 0]⟩]

/-- The MSD of these atoms along the axes `d`. -/
def exAxisRun (d : String) : PyM (Boot ℚ × Unit) := msdBootstrap (fun _ => 0) (exOracle ℚ) (exOpts ℚ) () [1, 2, 3] exAxisMoves [6, 3, 2] 1 d

/-- The inverses of the covariance matrices along x, along y and in the plane. -/
def exAxisP : String → Matrix (Fin 3) (Fin 3) ℚ
  | "x" => !![425 / 234, -5 / 36, 0; -5 / 36, 7 / 36, -1 / 12; 0, -1 / 12, 1 / 18]
  | "y" => !![17 / 4, -1 / 8, 0; -1 / 8, 19 / 268, -3 / 536; 0, -3 / 536, 1 / 268]
  | _ => !![14 / 13, -1 / 26, 0; -1 / 26, 154 / 6487, -3 / 998; 0, -3 / 998, 1 / 499]

theorem exAxis_values {d : String} {y v : List ℚ} {k : ℕ} (h : ((exAxisRun d).toOption.map fun r => (r.1.n, r.1.v)) = some (y, v.map some) ∧
      ((exAxisRun d).toOption.map fun r => (r.1.nO, r.1.dt, r.1.dims)) = some ([6, 3, 2], [1, 2, 3], k)) :
    ∃ b, exAxisRun d = .ok (b, ()) ∧ b.n = y ∧ b.v = v.map some ∧ b.nO = [6, 3, 2] ∧ b.dt = [1, 2, 3] ∧ b.dims = k := by
  obtain ⟨h1, h2⟩ := h
  cases e : exAxisRun d with
  | error e' => rw [e] at h1; cases h1
  | ok r =>
    rw [e] at h1 h2
    have h1 := Option.some.inj h1
    have h2 := Option.some.inj h2
    simp only [Prod.mk.injEq] at h1 h2
    exact ⟨r.1, rfl, h1.1, h1.2, h2.1, h2.2.1, h2.2.2⟩

theorem exAxis_x : ∃ b, exAxisRun "x" = .ok (b, ()) ∧ b.n = [3 / 2, 11 / 2, 17 / 2] ∧ b.v = [13 / 20, 17, 225 / 4].map some ∧ b.nO = [6, 3, 2] ∧ b.dt = [1, 2, 3] ∧ b.dims = 1 :=
  exAxis_values (by decide +kernel)
theorem exAxis_y : ∃ b, exAxisRun "y" = .ok (b, ()) ∧ b.n = [7 / 2, 21 / 2, 37 / 2] ∧ b.v = [1 / 4, 17, 1225 / 4].map some ∧ b.nO = [6, 3, 2] ∧ b.dt = [1, 2, 3] ∧ b.dims = 1 :=
  exAxis_values (by decide +kernel)
theorem exAxis_xy : ∃ b, exAxisRun "xy" = .ok (b, ()) ∧ b.n = [5, 16, 27] ∧ b.v = [1, 56, 625].map some ∧ b.nO = [6, 3, 2] ∧ b.dt = [1, 2, 3] ∧ b.dims = 2 :=
  exAxis_values (by decide +kernel)

/-- The best line for three intervals and its uniqueness, from the numbers. -/
theorem exAxis_line (b : Boot ℚ) (y v : List ℚ) (A P : Matrix (Fin 3) (Fin 3) ℚ) (c : ℚ) (h1 : b.n = y) (h2 : b.v = v.map some) (h3 : b.nO = [6, 3, 2]) (h4 : b.dt = [1, 2, 3]) (hy : y.length = 3)
    (hv : v.length = 3) (hA : (populateCovariance (v.map some) [6, 3, 2]).toOption = some (rowsOf A)) (hAP : A * P = 1) (hp : 0 < exIncr v 0)
    (hw : ∀ k < 2, exIncr v k * exIncr [6, 3, 2] k ^ 2 < exIncr v (k + 1) * exIncr [6, 3, 2] (k + 1) ^ 2) (hc : c ≤ exIncr y 0)
    (hN : ∑ k ∈ Finset.range 2, jump (exIncr [6, 3, 2]) (k + 1) * (jump (fun i => exIncr [6, 3, 2] i * exIncr y i) (k + 1) - c * jump (exIncr [6, 3, 2]) (k + 1)) /
      jump (fun i => exIncr v i * exIncr [6, 3, 2] i ^ 2) (k + 1) = 0) (ld : ℚ) :
    FitWeights b 0 P ∧ (∃ best, BestLine (fitLL b 0 ld P) (exIncr y 0 - c) c best) ∧
      ∀ g' c' best', BestLine (fitLL b 0 ld P) g' c' best' → g' = exIncr y 0 - c ∧ c' = c := by
  have hm : populateCovariance (v.map some) [6, 3, 2] = .ok (rowsOf A) := ok_of_toOption hA
  obtain ⟨a₀, a₁, a₂, rfl⟩ : ∃ a₀ a₁ a₂, v = [a₀, a₁, a₂] := by
    match v, hv with
    | [a, b, c], _ => exact ⟨a, b, c, rfl⟩
  refine ⟨⟨A, by rw [h2, h3]; exact hm, hAP⟩, ?_⟩
  have := C134_intercept (m := 2) (exIncr [a₀, a₁, a₂]) (exIncr [6, 3, 2]) (exIncr [1, 2, 3]) (exIncr y) (by decide +kernel) [] A P
    (by rw [← hm]; rfl) hAP ld 6 (by decide +kernel) (by decide +kernel) hp hw c hc hN
  have e1 : exIncr [1, 2, 3] 0 = 1 := rfl
  rw [e1, div_one] at this
  have e2 : fitLL b 0 ld P = logLikelihood ld P (fun i => exIncr [1, 2, 3] i) (fun i => exIncr y i) := by
    unfold fitLL
    rw [h4, h1]
    rfl
  rw [e2]
  exact ⟨this.1, this.2 ⟨0, by omega, by decide +kernel⟩⟩

/-- **C136, violated.** For these two atoms, with the intercept the default of the library fits: the gradient of highest likelihood is 11/3 along x, 239/34 along y, and 11 in the plane.
`D` in the plane (11/4) is not the mean of `D` along the two axes (1091/408). -/
theorem C136_violated (ld ld₁ ld₂ : ℚ) : ∃ b b₁ b₂ : Boot ℚ, exAxisRun "xy" = .ok (b, ()) ∧ exAxisRun "x" = .ok (b₁, ()) ∧ exAxisRun "y" = .ok (b₂, ()) ∧
    b.dims = b₁.dims + b₂.dims ∧ FitWeights b 0 (exAxisP "xy") ∧ FitWeights b₁ 0 (exAxisP "x") ∧ FitWeights b₂ 0 (exAxisP "y") ∧
    (∃ g c best, BestLine (fitLL b 0 ld (exAxisP "xy")) g c best) ∧ (∃ g c best, BestLine (fitLL b₁ 0 ld₁ (exAxisP "x")) g c best) ∧
    (∃ g c best, BestLine (fitLL b₂ 0 ld₂ (exAxisP "y")) g c best) ∧
    ∀ g g₁ g₂ c c₁ c₂ best best₁ best₂, BestLine (fitLL b 0 ld (exAxisP "xy")) g c best → BestLine (fitLL b₁ 0 ld₁ (exAxisP "x")) g₁ c₁ best₁ →
      BestLine (fitLL b₂ 0 ld₂ (exAxisP "y")) g₂ c₂ best₂ → g ≠ g₁ + g₂ := by
  obtain ⟨b, e, e1, e2, e3, e4, e5⟩ := exAxis_xy
  obtain ⟨b₁, f, f1, f2, f3, f4, f5⟩ := exAxis_x
  obtain ⟨b₂, k, k1, k2, k3, k4, k5⟩ := exAxis_y
  obtain ⟨p1, p2, p3⟩ := exAxis_line b _ _ !![1, 2, 3; 2, 56, 84; 3, 84, 625] (exAxisP "xy") (-6) e1 e2 e3 e4 rfl rfl (by decide +kernel) (by decide +kernel) (by decide +kernel)
    (by decide +kernel) (by decide +kernel) (by decide +kernel) ld
  obtain ⟨q1, q2, q3⟩ := exAxis_line b₁ _ _ !![13 / 20, 13 / 10, 39 / 20; 13 / 10, 17, 51 / 2; 39 / 20, 51 / 2, 225 / 4] (exAxisP "x") (-13 / 6) f1 f2 f3 f4 rfl rfl (by decide +kernel)
    (by decide +kernel) (by decide +kernel) (by decide +kernel) (by decide +kernel) (by decide +kernel) ld₁
  obtain ⟨r1, r2, r3⟩ := exAxis_line b₂ _ _ !![1 / 4, 1 / 2, 3 / 4; 1 / 2, 17, 51 / 2; 3 / 4, 51 / 2, 1225 / 4] (exAxisP "y") (-60 / 17) k1 k2 k3 k4 rfl rfl (by decide +kernel)
    (by decide +kernel) (by decide +kernel) (by decide +kernel) (by decide +kernel) (by decide +kernel) ld₂
  refine ⟨b, b₁, b₂, e, f, k, by rw [e5, f5, k5], p1, q1, r1, ⟨_, _, p2⟩, ⟨_, _, q2⟩, ⟨_, _, r2⟩, ?_⟩
  intro g g₁ g₂ c c₁ c₂ best best₁ best₂ h h₁ h₂
  rw [(p3 _ _ _ h).1, (q3 _ _ _ h₁).1, (r3 _ _ _ h₂).1]
  decide +kernel

/-- `C136_no_intercept_partial` on these atoms: the best rays have the gradients 3/2, 7/2 and 5, and all hypotheses are met. -/
example : ∃ (b b₁ b₂ : Boot ℚ) (best best₁ best₂ : ℚ), exAxisRun "xy" = .ok (b, ()) ∧ exAxisRun "x" = .ok (b₁, ()) ∧ exAxisRun "y" = .ok (b₂, ()) ∧
    FitWeights b 0 (exAxisP "xy") ∧ FitWeights b₁ 0 (exAxisP "x") ∧ FitWeights b₂ 0 (exAxisP "y") ∧ BestRay (fitLL b 0 0 (exAxisP "xy")) 5 best ∧
    BestRay (fitLL b₁ 0 0 (exAxisP "x")) (3 / 2) best₁ ∧ BestRay (fitLL b₂ 0 0 (exAxisP "y")) (7 / 2) best₂ ∧
    axesOf "xy" = axesOf "x" ∪ axesOf "y" ∧ Disjoint (axesOf "x") (axesOf "y") ∧ (∀ x ∈ [b, b₁, b₂], ∀ i, 0 ≤ i → i < x.n.length → ∃ y, x.v[i]? = some (some y) ∧ 0 < y) ∧
    2 + 1 = b.n.length - 0 := by
  obtain ⟨b, e, e1, e2, e3, e4, e5⟩ := exAxis_xy
  obtain ⟨b₁, f, f1, f2, f3, f4, f5⟩ := exAxis_x
  obtain ⟨b₂, k, k1, k2, k3, k4, k5⟩ := exAxis_y
  have p1 := (exAxis_line b _ _ !![1, 2, 3; 2, 56, 84; 3, 84, 625] (exAxisP "xy") (-6) e1 e2 e3 e4 rfl rfl (by decide +kernel) (by decide +kernel) (by decide +kernel)
    (by decide +kernel) (by decide +kernel) (by decide +kernel) 0).1
  have q1 := (exAxis_line b₁ _ _ !![13 / 20, 13 / 10, 39 / 20; 13 / 10, 17, 51 / 2; 39 / 20, 51 / 2, 225 / 4] (exAxisP "x") (-13 / 6) f1 f2 f3 f4 rfl rfl (by decide +kernel)
    (by decide +kernel) (by decide +kernel) (by decide +kernel) (by decide +kernel) (by decide +kernel) 0).1
  have r1 := (exAxis_line b₂ _ _ !![1 / 4, 1 / 2, 3 / 4; 1 / 2, 17, 51 / 2; 3 / 4, 51 / 2, 1225 / 4] (exAxisP "y") (-60 / 17) k1 k2 k3 k4 rfl rfl (by decide +kernel)
    (by decide +kernel) (by decide +kernel) (by decide +kernel) (by decide +kernel) (by decide +kernel) 0).1
  have ray : ∀ (x : Boot ℚ) (y v : List ℚ) (P : Matrix (Fin 3) (Fin 3) ℚ) (g : ℚ), x.n = y → x.v = v.map some → x.nO = [6, 3, 2] → x.dt = [1, 2, 3] → y.length = 3 → v.length = 3 →
      (∀ z ∈ v, 0 < z) → (∀ z ∈ y, 0 ≤ z) → g = y.getD 0 0 → FitWeights x 0 P → (∃ best, BestRay (fitLL x 0 0 P) g best) ∧
      ∀ i, 0 ≤ i → i < x.n.length → ∃ y, x.v[i]? = some (some y) ∧ 0 < y := by
    intro x y v P g h1 h2 h3 h4 hy hv hvp hyp hg hP
    have hv' : ∀ i, 0 ≤ i → i < x.n.length → ∃ y, x.v[i]? = some (some y) ∧ 0 < y := by
      intro i _ hi
      rw [h1, hy, ← hv] at hi
      exact ⟨v[i], by rw [h2, List.getElem?_map, List.getElem?_eq_getElem hi]; rfl, hvp _ (List.getElem_mem hi)⟩
    refine ⟨(fit_ray hP (by rw [h1, hy]) (by rw [h1, h2, List.length_map, hy, hv]) (by rw [h1, h4, hy]; rfl) hv' (by rw [h3]; decide +kernel) 6 ?_ (by rw [h4]; decide +kernel)
      (by rw [h1]; exact hyp) 0 g).2 ?_, hv'⟩
    · rw [h3, h4]
      intro k t N ht hN
      match k with
      | 0 | 1 | 2 => simp at ht hN; subst ht hN; norm_num
      | k + 3 => simp at ht
    · rw [h1, h4, hg]
      simp
  obtain ⟨⟨s, p2⟩, p3⟩ := ray b _ _ _ 5 e1 e2 e3 e4 rfl rfl (by decide +kernel) (by decide +kernel) rfl p1
  obtain ⟨⟨s₁, q2⟩, q3⟩ := ray b₁ _ _ _ (3 / 2) f1 f2 f3 f4 rfl rfl (by decide +kernel) (by decide +kernel) rfl q1
  obtain ⟨⟨s₂, r2⟩, r3⟩ := ray b₂ _ _ _ (7 / 2) k1 k2 k3 k4 rfl rfl (by decide +kernel) (by decide +kernel) rfl r1
  refine ⟨b, b₁, b₂, s, s₁, s₂, e, f, k, p1, q1, r1, p2, q2, r2, by decide +kernel, by decide +kernel, ?_, by rw [e1]; rfl⟩
  intro x hx
  simp only [List.mem_cons, List.not_mem_nil, or_false] at hx
  rcases hx with rfl | rfl | rfl
  · exact p3
  · exact q3
  · exact r3

end Kinisi

import Verif.Props.Axes
import Verif.Props.Species
import Verif.Props.Analyzer

/-!
# C145: the diffusion coefficient of a pool
-/

set_option linter.unusedSectionVars false
set_option linter.unusedVariables false

namespace Kinisi
open Spec
variable {K : Type} [Field K] [LinearOrder K] [IsStrictOrderedRing K] [FloorRing K] {G : Type}

/-- The times are positive and the numbers of independent observations are positive and inversely proportional to them, as for the intervals that are chosen by default (`C134_constant_atoms`). -/
def InverseCounts (b : Boot K) : Prop :=
  (∃ κ, ∀ (k : ℕ) (t N : K), b.dt[k]? = some t → b.nO[k]? = some N → N * t = κ) ∧ (∀ t ∈ b.dt, 0 < t) ∧ ∀ N ∈ b.nO, 0 < N

/-- `γ` is the gradient of highest likelihood in a fit of `b` from position `r` on, without intercept, with measured variances that are positive. -/
def RayFit (b : Boot K) (r : ℕ) (γ : K) : Prop :=
  (∀ i, r ≤ i → i < b.n.length → ∃ x, b.v[i]? = some (some x) ∧ 0 < x) ∧
    ∃ (m : ℕ) (P : Matrix (Fin (m + 1)) (Fin (m + 1)) K) (ld best : K), m + 1 = b.n.length - r ∧ FitWeights b r P ∧ BestRay (fitLL b r ld P) γ best

/-- Such a gradient is the first value over the first time. -/
theorem ray_value {sq : K → K} {o : Oracle K G} {opt : BootOpts K} (hblock : opt.block = false) {g g' : G} {deltaT : List K} {disp : List (Arr3 K)} {nO : List K} {d : String} {b : Boot K}
    (h : msdBootstrap sq o opt g deltaT disp nO 1 d = .ok (b, g')) (hI : InverseCounts b) {r : ℕ} {γ : K} (hR : RayFit b r γ) :
    r < b.n.length ∧ deltaT[r]? = some (b.dt.getD r 0) ∧ γ = b.n.getD r 0 / b.dt.getD r 0 := by
  have hnn := C28_nonneg sq o opt hblock g g' deltaT disp nO 1 d b h
  obtain ⟨b0, q, i1, -, i2, -, b1, i4, i3⟩ := msdBootstrap_inv h
  obtain ⟨ds, dts, sel, d0, j1, j2, j3, -, rfl⟩ := bootInit_inv i1
  rw [pyStride_one] at j2
  obtain rfl := Except.ok.inj j2
  obtain ⟨hv, m, P, ld, best, hm, hP, hB⟩ := hR
  obtain ⟨⟨κ, hκ⟩, ht, hn⟩ := hI
  have hd : b.dt.length = b.n.length := by rw [i2.ldt, i2.ln]
  refine ⟨by omega, ?_, (fit_ray hP hm (by rw [i2.lv, i2.ln]) hd hv hn κ hκ ht hnn ld γ).1 ⟨best, hB⟩⟩
  have hk : r < b.dt.length := by omega
  obtain ⟨a, l, m', w, t', -, -, -, -, e5, -, -, -, -, e10, -⟩ := i2.entry r (by rw [← i2.ldt]; exact hk)
  rw [List.getD_eq_getElem?_getD, e10]
  exact e5

/-- **C145, pooled trajectories, what holds.** Trajectories with identical starting points and equal time intervals, fitted without intercept from the same interval on: the gradient of highest
likelihood of the pool is the mean of the gradients of the single trajectories.  Every format (`parse`), every number of trajectories, no blocking.  Missing: fits with an intercept. -/
theorem C145_pool_partial {α : Type} (parse : α → PyM (Parsed K)) (pj : Option (List α → PyM (Parsed K))) (xs : List α) (u0 : Parsed K) (others : List (Parsed K))
    (hp : xs.mapM parse = .ok (u0 :: others)) (m : ℕ) (N T : ℕ → ℕ) (hs : SameShape (u0 :: others) m N T) (hdt : ∀ u ∈ others, u.deltaT = u0.deltaT) (sq : K → K) (o : Oracle K G) (opt : BootOpts K)
    (hblock : opt.block = false) (d : String) (A : Base K) (hA : analyzerFrom parse pj (some "identical") (.several xs) = .ok A) (b : Boot K) (g g' : G)
    (h : msdBootstrap sq o opt g A.deltaT A.disp3d A.nO 1 d = .ok (b, g')) (bs : List (Boot K))
    (hbs : List.Forall₂ (fun (u : Parsed K) b' => ∃ g g', msdBootstrap sq o opt g u.deltaT u.disp3d u.nO 1 d = .ok (b', g')) (u0 :: others) bs) (hI : ∀ x ∈ b :: bs, InverseCounts x)
    (r : ℕ) (γ : K) (hγ : RayFit b r γ) (γs : List K) (hγs : List.Forall₂ (fun b' e => RayFit b' r e) bs γs) : γ = γs.sum / (γs.length : K) := by
  have hmean := C53_msd parse pj xs u0 others hp m N T hs sq o opt hblock 1 d A hA b g g' h bs hbs r
  obtain ⟨A', hA', hT, -⟩ := C53_pool parse pj xs u0 others hp m N T hs
  rw [hA] at hA'
  obtain rfl := Except.ok.inj hA'
  obtain ⟨q1, q2, q3⟩ := ray_value hblock h (hI b (by simp)) hγ
  rw [hT] at q2
  have key : ∀ (us : List (Parsed K)) (bs : List (Boot K)) (γs : List K), (∀ u ∈ us, u.deltaT = u0.deltaT) → (∀ x ∈ bs, InverseCounts x) →
      List.Forall₂ (fun (u : Parsed K) b' => ∃ g g', msdBootstrap sq o opt g u.deltaT u.disp3d u.nO 1 d = .ok (b', g')) us bs → List.Forall₂ (fun b' e => RayFit b' r e) bs γs →
      (∀ b' ∈ bs, r < b'.n.length) ∧ γs.sum = (bs.map fun b' => b'.n.getD r 0).sum / b.dt.getD r 0 := by
    intro us bs γs hu hi h1 h2
    induction h1 generalizing γs with
    | nil => cases h2; simp
    | @cons u b' us bs e1 e2 ih =>
      cases h2 with
      | @cons _ e _ γs' f1 f2 =>
      obtain ⟨g₁, g₂, run⟩ := e1
      obtain ⟨p1, p2, p3⟩ := ray_value hblock run (hi b' (by simp)) f1
      obtain ⟨k1, k2⟩ := ih γs' (fun u hu' => hu u (by simp [hu'])) (fun x hx => hi x (by simp [hx])) f2
      rw [hu u (by simp), q2] at p2
      rw [← Option.some.inj p2] at p3
      refine ⟨by simpa using ⟨p1, k1⟩, ?_⟩
      rw [List.sum_cons, List.map_cons, List.sum_cons, k2, p3, add_div]
  obtain ⟨k1, k2⟩ := key _ bs γs (by simpa using hdt) (fun x hx => hI x (by simp [hx])) hbs hγs
  have hv := hmean k1
  rw [q3, k2, ← hγs.length_eq, List.getD_eq_getElem?_getD, hv, Option.getD_some]
  ring

/-- **C145, several species, what holds.** As C122, with fits without intercept from the same interval on: the gradient of highest likelihood of both species together is the mean of the two gradients
weighted with the numbers of atoms.  Missing: fits with an intercept. -/
theorem C145_species_partial (E : Num K) (P : Params K) (S : Select K) (f : PySeq) (hS : S.framework = some f) (A B : List String) (hd : ∀ s ∈ A, s ∉ B) (sy : List String)
    (hA : 2 ≤ (chosen sy A).length) (hB : 2 ≤ (chosen sy B).length) (rd : Select K → PyM (Base K)) (hr : Reads E P sy rd) (sq : K → K) (o : Oracle K G) (U : UncParams K)
    (hblock : U.opt.block = false) (hsub : U.sub = 1) (g₁ g₁' g₂ g₂' g₃ g₃' : G) (Z₁ Z₂ Z₃ : Analyzer K) (h₁ : diffusionAnalyzer sq o g₁ U (rd (withSpecies S A)) = .ok (Z₁, g₁'))
    (h₂ : diffusionAnalyzer sq o g₂ U (rd (withSpecies S B)) = .ok (Z₂, g₂')) (h₃ : diffusionAnalyzer sq o g₃ U (rd (withSpecies S (A ++ B))) = .ok (Z₃, g₃'))
    (hI : ∀ z ∈ [Z₁, Z₂, Z₃], InverseCounts z.diff) (r : ℕ) (γ₁ γ₂ γ₃ : K) (e₁ : RayFit Z₁.diff r γ₁) (e₂ : RayFit Z₂.diff r γ₂) (e₃ : RayFit Z₃.diff r γ₃) :
    γ₃ = ((chosen sy A).length * γ₁ + (chosen sy B).length * γ₂) / ((chosen sy A).length + (chosen sy B).length) := by
  obtain ⟨t1, t2, l1, hn, -⟩ := C122_species E P S f hS A B hd sy hA hB rd hr sq o U hblock g₁ g₁' g₂ g₂' g₃ g₃' Z₁ Z₂ Z₃ h₁ h₂ h₃
  obtain ⟨B₁, -, -, m₁⟩ := diffusion_inv h₁
  obtain ⟨B₂, -, -, m₂⟩ := diffusion_inv h₂
  obtain ⟨B₃, -, -, m₃⟩ := diffusion_inv h₃
  rw [hsub] at m₁ m₂ m₃
  obtain ⟨p1, -, p3⟩ := ray_value hblock m₁ (hI _ (by simp)) e₁
  obtain ⟨q1, -, q3⟩ := ray_value hblock m₂ (hI _ (by simp)) e₂
  obtain ⟨r1, -, r3⟩ := ray_value hblock m₃ (hI _ (by simp)) e₃
  rw [p3, q3, r3, t1, t2, hn]
  simp only [List.getD_eq_getElem?_getD, List.getElem?_zipWith, List.getElem?_eq_getElem p1, List.getElem?_eq_getElem q1, Option.getD_some]
  ring

/-! ## Two trajectories of three frames -/

/-- Two Li atoms and an O atom at rest: in the two steps from frame to frame the Li atoms move by `a` and by `b` tenths of the cell along x. -/
def exSteps (a b : List ℤ) : List (Frame ℚ) :=
  (List.range 3).map fun j : ℕ =>
    { symbols := ["Li", "O", "Li"]
      frac := [![((a.take j).sum : ℤ) / 10, 0, 0], ![0, 1 / 2, 0], ![((b.take j).sum : ℤ) / 10, 1 / 4, 0]]
      latt := exBox
      volume := 1000 }

def exStepsRun (l : List (List (Frame ℚ))) : PyM (Analyzer ℚ × Unit) :=
  diffusionAnalyzer id (exOracle ℚ) () exUnc (fromAse exNum exParams exSelect 1 (some "identical") (.several l))

def exStepsA : List (Frame ℚ) := exSteps [1, 1] [1, 0]
def exStepsB : List (Frame ℚ) := exSteps [-1, -1] [2, 2]

theorem exSteps_values {x : PyM (Analyzer ℚ × Unit)} {y v n : List ℚ} (h : (x.toOption.map fun r => (r.1.diff.n, r.1.diff.v)) = some (y, v.map some) ∧
      (x.toOption.map fun r => (r.1.diff.nO, r.1.diff.dt)) = some (n, [6, 12, 18])) :
    ∃ Z, x = .ok (Z, ()) ∧ Z.diff.n = y ∧ Z.diff.v = v.map some ∧ Z.diff.nO = n ∧ Z.diff.dt = [6, 12, 18] := by
  obtain ⟨h1, h2⟩ := h
  cases x with
  | error e' => cases h1
  | ok r =>
    have h1 := Option.some.inj h1
    have h2 := Option.some.inj h2
    simp only [Prod.mk.injEq] at h1 h2
    exact ⟨r.1, rfl, h1.1, h1.2, h2.1, h2.2⟩

/-- The best line of three intervals and its uniqueness, from the numbers. -/
theorem exSteps_line {b : Boot ℚ} {y v n : List ℚ} {A P : Matrix (Fin 3) (Fin 3) ℚ} (c κ : ℚ) (h1 : b.n = y) (h2 : b.v = v.map some) (h3 : b.nO = n) (h4 : b.dt = [6, 12, 18])
    (hv : v.length = 3) (hl : n.length = 3) (hA : (populateCovariance (v.map some) n).toOption = some (rowsOf A)) (hAP : A * P = 1) (hn : ∀ i < 3, 0 < exIncr n i)
    (hκ : ∀ i < 3, exIncr n i * exIncr [6, 12, 18] i = κ) (hne : exIncr n 1 ≠ exIncr n 0) (hp : 0 < exIncr v 0) (hw : ∀ k < 2, exIncr v k * exIncr n k ^ 2 < exIncr v (k + 1) * exIncr n (k + 1) ^ 2) (hc : c ≤ exIncr y 0)
    (hN : ∑ k ∈ Finset.range 2, jump (exIncr n) (k + 1) * (jump (fun i => exIncr n i * exIncr y i) (k + 1) - c * jump (exIncr n) (k + 1)) /
      jump (fun i => exIncr v i * exIncr n i ^ 2) (k + 1) = 0) (ld : ℚ) :
    FitWeights b 0 P ∧ (∃ best, BestLine (fitLL b 0 ld P) ((exIncr y 0 - c) / 6) c best) ∧
      ∀ g' c' best', BestLine (fitLL b 0 ld P) g' c' best' → g' = (exIncr y 0 - c) / 6 := by
  have hm : populateCovariance (v.map some) n = .ok (rowsOf A) := ok_of_toOption hA
  obtain ⟨a₀, a₁, a₂, rfl⟩ : ∃ a₀ a₁ a₂, v = [a₀, a₁, a₂] := by
    match v, hv with
    | [a, b, c], _ => exact ⟨a, b, c, rfl⟩
  obtain ⟨n₀, n₁, n₂, rfl⟩ : ∃ a₀ a₁ a₂, n = [a₀, a₁, a₂] := by
    match n, hl with
    | [a, b, c], _ => exact ⟨a, b, c, rfl⟩
  refine ⟨⟨A, by rw [h2, h3]; exact hm, hAP⟩, ?_⟩
  have := C134_intercept (m := 2) (exIncr [a₀, a₁, a₂]) (exIncr [n₀, n₁, n₂]) (exIncr [6, 12, 18]) (exIncr y) hn [] A P
    (by rw [← hm]; rfl) hAP ld κ hκ (by decide +kernel) hp hw c hc hN
  have e1 : exIncr [6, 12, 18] 0 = 6 := rfl
  rw [e1] at this
  have e2 : fitLL b 0 ld P = logLikelihood ld P (fun i => exIncr [6, 12, 18] i) (fun i => exIncr y i) := by
    unfold fitLL
    rw [h4, h1]
    rfl
  rw [e2]
  exact ⟨this.1, fun g' c' best' h => (this.2 ⟨0, by omega, hne⟩ g' c' best' h).1⟩

/-- **C145, violated.** A trajectory analysed alone and pooled with a copy of itself: the times and the MSD are the same, but with the intercept the default of the library fits, the gradient of
highest likelihood is 59/336 for the trajectory and 59/624 for the pool of it and its copy, in each case the only one.  (The variances of the intervals change by different factors, because they are estimated from different
numbers of displacements, so that the intervals have other weights.) -/
theorem C145_violated (ld ld' : ℚ) : ∃ (Z Z' : Analyzer ℚ) (P P' : Matrix (Fin 3) (Fin 3) ℚ), exStepsRun [exStepsA] = .ok (Z, ()) ∧ exStepsRun [exStepsA, exStepsA] = .ok (Z', ()) ∧
    Z'.diff.n = Z.diff.n ∧ Z'.diff.dt = Z.diff.dt ∧ FitWeights Z.diff 0 P ∧ FitWeights Z'.diff 0 P' ∧ (∃ g c best, BestLine (fitLL Z.diff 0 ld P) g c best) ∧
    (∃ g c best, BestLine (fitLL Z'.diff 0 ld' P') g c best) ∧
    ∀ g g' c c' best best', BestLine (fitLL Z.diff 0 ld P) g c best → BestLine (fitLL Z'.diff 0 ld' P') g' c' best' → g = 59 / 336 ∧ g' = 59 / 624 := by
  obtain ⟨Z, e, n, v, o, t⟩ := exSteps_values (x := exStepsRun [exStepsA]) (y := [1 / 2, 7 / 4, 5 / 2]) (v := [1 / 20, 3 / 4, 9 / 4]) (n := [6, 3, 2]) (by decide +kernel)
  obtain ⟨Z', e', n', v', o', t'⟩ := exSteps_values (x := exStepsRun [exStepsA, exStepsA]) (y := [1 / 2, 7 / 4, 5 / 2]) (v := [1 / 44, 9 / 28, 3 / 4]) (n := [12, 6, 4]) (by decide +kernel)
  obtain ⟨p1, p2, p3⟩ := exSteps_line (A := !![1 / 20, 1 / 10, 3 / 20; 1 / 10, 3 / 4, 9 / 8; 3 / 20, 9 / 8, 9 / 4]) (P := !![300 / 11, -40 / 11, 0; -40 / 11, 64 / 11, -8 / 3; 0, -8 / 3, 16 / 9]) (-31 / 56) 36 n v o t rfl rfl
    (by decide +kernel) (by decide +kernel) (by decide +kernel) (by decide +kernel) (by decide +kernel) (by decide +kernel) (by decide +kernel) (by decide +kernel) (by decide +kernel) ld
  obtain ⟨q1, q2, q3⟩ := exSteps_line (A := !![1 / 44, 1 / 22, 3 / 44; 1 / 22, 9 / 28, 27 / 56; 3 / 44, 27 / 56, 3 / 4]) (P := !![4356 / 71, -616 / 71, 0; -616 / 71, 6272 / 71, -56; 0, -56, 112 / 3]) (-7 / 104) 72 n' v' o' t' rfl rfl
    (by decide +kernel) (by decide +kernel) (by decide +kernel) (by decide +kernel) (by decide +kernel) (by decide +kernel) (by decide +kernel) (by decide +kernel) (by decide +kernel) ld'
  refine ⟨Z, Z', _, _, e, e', by rw [n, n'], by rw [t, t'], p1, q1, ⟨_, _, p2⟩, ⟨_, _, q2⟩, fun g g' c c' best best' h h' => ⟨?_, ?_⟩⟩
  · rw [p3 _ _ _ h]; decide +kernel
  · rw [q3 _ _ _ h']; decide +kernel

/-- The best ray of three intervals, from the numbers. -/
theorem exSteps_ray {b : Boot ℚ} {y v n : List ℚ} {A P : Matrix (Fin 3) (Fin 3) ℚ} (κ : ℚ) (h1 : b.n = y) (h2 : b.v = v.map some) (h3 : b.nO = n) (h4 : b.dt = [6, 12, 18])
    (hy : y.length = 3) (hv : v.length = 3) (hl : n.length = 3) (hA : (populateCovariance (v.map some) n).toOption = some (rowsOf A)) (hAP : A * P = 1) (hn : ∀ x ∈ n, 0 < x)
    (hκ : ∀ i < 3, exIncr n i * exIncr [6, 12, 18] i = κ) (hp : ∀ x ∈ v, 0 < x) (hy0 : ∀ x ∈ y, 0 ≤ x) : InverseCounts b ∧ RayFit b 0 (exIncr y 0 / 6) := by
  have hI : ∀ (k : ℕ) (t N : ℚ), b.dt[k]? = some t → b.nO[k]? = some N → N * t = κ := by
    intro k t N ht hN
    rw [h4] at ht
    rw [h3] at hN
    have hk : k < 3 := (List.getElem?_eq_some_iff.1 ht).1
    rw [← hκ k hk]
    unfold exIncr
    rw [List.getD_eq_getElem?_getD, List.getD_eq_getElem?_getD, ht, hN]
    rfl
  have ht : ∀ t ∈ b.dt, 0 < t := by rw [h4]; decide +kernel
  have hv' : ∀ i, 0 ≤ i → i < b.n.length → ∃ x, b.v[i]? = some (some x) ∧ 0 < x := by
    intro i _ hi
    rw [h1, hy, ← hv] at hi
    exact ⟨v[i], by rw [h2, List.getElem?_map, List.getElem?_eq_getElem hi]; rfl, hp _ (List.getElem_mem hi)⟩
  have hP : FitWeights b 0 P := ⟨A, by rw [h2, h3]; exact ok_of_toOption hA, hAP⟩
  refine ⟨⟨⟨κ, hI⟩, ht, by rw [h3]; exact hn⟩, hv', 2, P, 0, ?_⟩
  obtain ⟨best, hb⟩ := (fit_ray hP (m := 2) (by rw [h1, hy]) (by rw [h1, h2, List.length_map, hy, hv]) (by rw [h1, h4, hy]; rfl) hv' (by rw [h3]; exact hn) κ hI ht
    (by rw [h1]; exact hy0) 0 (exIncr y 0 / 6)).2 (by rw [h1, h4]; rfl)
  exact ⟨best, by rw [h1, hy], hP, hb⟩

theorem exSteps_parsed {x : PyM (Parsed ℚ)} {y v n : List ℚ} (h : (x.toOption.map fun u => (u.disp3d.map fun a => (a.n0, a.n1), u.nO.length)) = some ([(2, 3), (2, 2), (2, 1)], 3))
    (ht : (x.toOption.map fun u => u.deltaT) = some [6, 12, 18])
    (hb : ((x.toOption.bind fun u => (msdBootstrap id (exOracle ℚ) (exOpts ℚ) () u.deltaT u.disp3d u.nO 1 "xyz").toOption).map fun r => (r.1.n, r.1.v)) = some (y, v.map some) ∧
      ((x.toOption.bind fun u => (msdBootstrap id (exOracle ℚ) (exOpts ℚ) () u.deltaT u.disp3d u.nO 1 "xyz").toOption).map fun r => (r.1.nO, r.1.dt)) = some (n, [6, 12, 18])) :
    ∃ u b, x = .ok u ∧ SameShape [u] 3 (fun _ => 2) (fun i => 3 - i) ∧ u.deltaT = [6, 12, 18] ∧ msdBootstrap id (exOracle ℚ) (exOpts ℚ) () u.deltaT u.disp3d u.nO 1 "xyz" = .ok (b, ()) ∧
      b.n = y ∧ b.v = v.map some ∧ b.nO = n ∧ b.dt = [6, 12, 18] := by
  cases x with
  | error e => cases h
  | ok u =>
    have h := Option.some.inj h
    have ht := Option.some.inj ht
    simp only [Prod.mk.injEq] at h
    obtain ⟨h1, h2⟩ := hb
    simp only [Except.toOption, Option.bind_some] at h1 h2
    cases e : msdBootstrap id (exOracle ℚ) (exOpts ℚ) () u.deltaT u.disp3d u.nO 1 "xyz" with
    | error e' => rw [e] at h1; cases h1
    | ok r =>
      rw [e] at h1 h2
      have h1 := Option.some.inj h1
      have h2 := Option.some.inj h2
      simp only [Prod.mk.injEq] at h1 h2
      refine ⟨u, r.1, rfl, ?_, ht, by rw [e], h1.1, h1.2, h2.1, h2.2⟩
      intro w hw
      obtain rfl := List.mem_singleton.1 hw
      have hl : w.disp3d.length = 3 := by simpa using congrArg List.length h.1
      refine ⟨hl, h.2, fun i a ha => ?_⟩
      have hi : i < 3 := by rw [← hl]; exact (List.getElem?_eq_some_iff.1 ha).1
      have := congrArg (fun l => l[i]?) h.1
      simp only [List.getElem?_map, ha] at this
      interval_cases i <;> simpa using this

/-- `C145_pool_partial` on two different trajectories: gradients 1/12 and 5/18, of the pool 13/72. -/
example : ∃ (A : Base ℚ) (b b₁ b₂ : Boot ℚ) (u u' : Parsed ℚ), [exStepsA, exStepsB].mapM (aseParser exNum exParams exSelect 1) = .ok [u, u'] ∧
    fromAse exNum exParams exSelect 1 (some "identical") (.several [exStepsA, exStepsB]) = .ok A ∧
    msdBootstrap id (exOracle ℚ) (exOpts ℚ) () A.deltaT A.disp3d A.nO 1 "xyz" = .ok (b, ()) ∧ msdBootstrap id (exOracle ℚ) (exOpts ℚ) () u.deltaT u.disp3d u.nO 1 "xyz" = .ok (b₁, ()) ∧
    msdBootstrap id (exOracle ℚ) (exOpts ℚ) () u'.deltaT u'.disp3d u'.nO 1 "xyz" = .ok (b₂, ()) ∧ RayFit b₁ 0 (1 / 12) ∧ RayFit b₂ 0 (5 / 18) ∧ RayFit b 0 (13 / 72) ∧
    ∀ γ, RayFit b 0 γ → γ = (1 / 12 + 5 / 18) / 2 := by
  obtain ⟨u, b₁, e₁, s₁, d₁, m₁, n₁, v₁, o₁, t₁⟩ := exSteps_parsed (x := aseParser exNum exParams exSelect 1 exStepsA) (y := [1 / 2, 7 / 4, 5 / 2]) (v := [1 / 20, 3 / 4, 9 / 4]) (n := [6, 3, 2])
    (by decide +kernel) (by decide +kernel) (by decide +kernel)
  obtain ⟨u', b₂, e₂, s₂, d₂, m₂, n₂, v₂, o₂, t₂⟩ := exSteps_parsed (x := aseParser exNum exParams exSelect 1 exStepsB) (y := [5 / 3, 25 / 4, 10]) (v := [26 / 45, 59 / 4, 36]) (n := [6, 3, 2])
    (by decide +kernel) (by decide +kernel) (by decide +kernel)
  obtain ⟨Z, e, n, v, o, t⟩ := exSteps_values (x := exStepsRun [exStepsA, exStepsB]) (y := [13 / 12, 4, 25 / 4]) (v := [25 / 144, 30 / 7, 177 / 16]) (n := [12, 6, 4]) (by decide +kernel)
  obtain ⟨A, hA, -, m⟩ := diffusion_inv e
  have hp : [exStepsA, exStepsB].mapM (aseParser exNum exParams exSelect 1) = .ok [u, u'] := by
    simp [List.mapM_cons, e₁, e₂, bind, Except.bind, pure, Except.pure]
  have hs : SameShape [u, u'] 3 (fun _ => 2) (fun i => 3 - i) := by
    intro w hw
    rcases List.mem_cons.1 hw with rfl | hw
    · exact s₁ _ (by simp)
    · exact s₂ _ hw
  obtain ⟨i₁, r₁⟩ := exSteps_ray (A := !![1 / 20, 1 / 10, 3 / 20; 1 / 10, 3 / 4, 9 / 8; 3 / 20, 9 / 8, 9 / 4]) (P := !![300 / 11, -40 / 11, 0; -40 / 11, 64 / 11, -8 / 3; 0, -8 / 3, 16 / 9]) 36
    n₁ v₁ o₁ t₁ rfl rfl rfl (by decide +kernel) (by decide +kernel) (by decide +kernel) (by decide +kernel) (by decide +kernel) (by decide +kernel)
  obtain ⟨i₂, r₂⟩ := exSteps_ray (A := !![26 / 45, 52 / 45, 26 / 15; 52 / 45, 59 / 4, 177 / 8; 26 / 15, 177 / 8, 36])
    (P := !![119475 / 58214, -360 / 2239, 0; -360 / 2239, 9856 / 11195, -8 / 15; 0, -8 / 15, 16 / 45]) 36
    n₂ v₂ o₂ t₂ rfl rfl rfl (by decide +kernel) (by decide +kernel) (by decide +kernel) (by decide +kernel) (by decide +kernel) (by decide +kernel)
  obtain ⟨i₃, r₃⟩ := exSteps_ray (A := !![25 / 144, 25 / 72, 25 / 48; 25 / 72, 30 / 7, 45 / 7; 25 / 48, 45 / 7, 177 / 16])
    (P := !![31104 / 4525, -504 / 905, 0; -504 / 905, 89376 / 47965, -56 / 53; 0, -56 / 53, 112 / 159]) 72
    n v o t rfl rfl rfl (by decide +kernel) (by decide +kernel) (by decide +kernel) (by decide +kernel) (by decide +kernel) (by decide +kernel)
  rw [show exIncr [1 / 2, 7 / 4, 5 / 2] 0 / 6 = 1 / 12 from by decide +kernel] at r₁
  rw [show exIncr [5 / 3, 25 / 4, 10] 0 / 6 = 5 / 18 from by decide +kernel] at r₂
  rw [show exIncr [13 / 12, 4, 25 / 4] 0 / 6 = 13 / 72 from by decide +kernel] at r₃
  refine ⟨A, Z.diff, b₁, b₂, u, u', hp, hA, m, m₁, m₂, r₁, r₂, r₃, fun γ hγ => ?_⟩
  have := C145_pool_partial (aseParser exNum exParams exSelect 1) _ [exStepsA, exStepsB] u [u'] hp 3 _ _ hs (by intro w hw; obtain rfl := List.mem_singleton.1 hw; rw [d₁, d₂]) id (exOracle ℚ) (exOpts ℚ) rfl
    "xyz" A hA Z.diff () () m [b₁, b₂] (.cons ⟨_, _, m₁⟩ (.cons ⟨_, _, m₂⟩ .nil)) (by
      intro x hx
      simp only [List.mem_cons, List.not_mem_nil, or_false] at hx
      rcases hx with rfl | rfl | rfl
      · exact i₃
      · exact i₁
      · exact i₂) 0 γ hγ [1 / 12, 5 / 18] (.cons r₁ (.cons r₂ .nil))
  rw [this]
  norm_num

/-- Li atoms as in the first, Na atoms as in the second trajectory, and an O atom at rest. -/
def exStepsMixed : List (Frame ℚ) :=
  (List.range 3).map fun j : ℕ =>
    { symbols := ["Li", "Na", "Li", "O", "Na"]
      frac := [![(([1, 1].take j).sum : ℤ) / 10, 0, 0], ![(([-1, -1].take j).sum : ℤ) / 10, 1 / 4, 0], ![(([1, 0].take j).sum : ℤ) / 10, 1 / 2, 0], ![0, 1 / 2, 1 / 2],
        ![(([2, 2].take j).sum : ℤ) / 10, 3 / 4, 0]]
      latt := exBox
      volume := 1000 }

def exStepsSpecies (l : List String) : PyM (Analyzer ℚ × Unit) :=
  diffusionAnalyzer id (exOracle ℚ) () exUnc (fromAse exNum exParams (withSpecies exMixedSelect l) 1 none (.one exStepsMixed))

/-- `C145_species_partial` on these atoms: gradients 1/12 for Li, 5/18 for Na and 13/72 for both. -/
example : ∃ Z₁ Z₂ Z₃ : Analyzer ℚ, exStepsSpecies ["Li"] = .ok (Z₁, ()) ∧ exStepsSpecies ["Na"] = .ok (Z₂, ()) ∧ exStepsSpecies (["Li"] ++ ["Na"]) = .ok (Z₃, ()) ∧
    RayFit Z₁.diff 0 (1 / 12) ∧ RayFit Z₂.diff 0 (5 / 18) ∧ RayFit Z₃.diff 0 (13 / 72) ∧ ∀ γ, RayFit Z₃.diff 0 γ → γ = (2 * (1 / 12) + 2 * (5 / 18)) / (2 + 2) := by
  obtain ⟨Z₁, e₁, n₁, v₁, o₁, t₁⟩ := exSteps_values (x := exStepsSpecies ["Li"]) (y := [1 / 2, 7 / 4, 5 / 2]) (v := [1 / 20, 3 / 4, 9 / 4]) (n := [6, 3, 2]) (by decide +kernel)
  obtain ⟨Z₂, e₂, n₂, v₂, o₂, t₂⟩ := exSteps_values (x := exStepsSpecies ["Na"]) (y := [5 / 3, 25 / 4, 10]) (v := [26 / 45, 59 / 4, 36]) (n := [6, 3, 2]) (by decide +kernel)
  obtain ⟨Z₃, e, n, v, o, t⟩ := exSteps_values (x := exStepsSpecies (["Li"] ++ ["Na"])) (y := [13 / 12, 4, 25 / 4]) (v := [25 / 144, 30 / 7, 177 / 16]) (n := [12, 6, 4]) (by decide +kernel)
  obtain ⟨i₁, r₁⟩ := exSteps_ray (A := !![1 / 20, 1 / 10, 3 / 20; 1 / 10, 3 / 4, 9 / 8; 3 / 20, 9 / 8, 9 / 4]) (P := !![300 / 11, -40 / 11, 0; -40 / 11, 64 / 11, -8 / 3; 0, -8 / 3, 16 / 9]) 36
    n₁ v₁ o₁ t₁ rfl rfl rfl (by decide +kernel) (by decide +kernel) (by decide +kernel) (by decide +kernel) (by decide +kernel) (by decide +kernel)
  obtain ⟨i₂, r₂⟩ := exSteps_ray (A := !![26 / 45, 52 / 45, 26 / 15; 52 / 45, 59 / 4, 177 / 8; 26 / 15, 177 / 8, 36])
    (P := !![119475 / 58214, -360 / 2239, 0; -360 / 2239, 9856 / 11195, -8 / 15; 0, -8 / 15, 16 / 45]) 36
    n₂ v₂ o₂ t₂ rfl rfl rfl (by decide +kernel) (by decide +kernel) (by decide +kernel) (by decide +kernel) (by decide +kernel) (by decide +kernel)
  obtain ⟨i₃, r₃⟩ := exSteps_ray (A := !![25 / 144, 25 / 72, 25 / 48; 25 / 72, 30 / 7, 45 / 7; 25 / 48, 45 / 7, 177 / 16])
    (P := !![31104 / 4525, -504 / 905, 0; -504 / 905, 89376 / 47965, -56 / 53; 0, -56 / 53, 112 / 159]) 72
    n v o t rfl rfl rfl (by decide +kernel) (by decide +kernel) (by decide +kernel) (by decide +kernel) (by decide +kernel) (by decide +kernel)
  rw [show exIncr [1 / 2, 7 / 4, 5 / 2] 0 / 6 = 1 / 12 from by decide +kernel] at r₁
  rw [show exIncr [5 / 3, 25 / 4, 10] 0 / 6 = 5 / 18 from by decide +kernel] at r₂
  rw [show exIncr [13 / 12, 4, 25 / 4] 0 / 6 = 13 / 72 from by decide +kernel] at r₃
  refine ⟨Z₁, Z₂, Z₃, e₁, e₂, e, r₁, r₂, r₃, fun γ hγ => ?_⟩
  have := C145_species_partial exNum exParams exMixedSelect _ rfl ["Li"] ["Na"] (by decide) ["Li", "Na", "Li", "O", "Na"] (by decide) (by decide)
    (fun S => fromAse exNum exParams S 1 none (.one exStepsMixed)) (.ase 1 exStepsMixed (by simp [exStepsMixed])) id (exOracle ℚ) exUnc rfl rfl () () () () () () Z₁ Z₂ Z₃ e₁ e₂ e (by
      intro x hx
      simp only [List.mem_cons, List.not_mem_nil, or_false] at hx
      rcases hx with rfl | rfl | rfl
      · exact i₁
      · exact i₂
      · exact i₃) 0 _ _ _ r₁ r₂ hγ
  rw [this]
  rw [show (chosen ["Li", "Na", "Li", "O", "Na"] ["Li"]).length = 2 from by decide, show (chosen ["Li", "Na", "Li", "O", "Na"] ["Na"]).length = 2 from by decide]
  norm_num

end Kinisi

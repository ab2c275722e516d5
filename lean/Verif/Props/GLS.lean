import Verif.Lemmas.GLS
import Verif.Spec.GLS
import Verif.Props.Covariance

/-!
# C44–C48: the generalised least-squares fit
-/

set_option linter.unusedSectionVars false
set_option linter.unusedVariables false

namespace Kinisi
open Spec
variable {K : Type} [Field K] [LinearOrder K] [IsStrictOrderedRing K] [FloorRing K]

/-! ## C44 -/

theorem fittedPart_drop {α : Type} {dt : List K} {s : K} {r : ℕ} (hs : dt.Pairwise (· ≤ ·)) (h : diffRegime dt s = .ok r) (xs : List α)
    (hl : xs.length = dt.length) : fittedPart s dt xs = xs.drop r := by
  obtain ⟨hr, h1, h2⟩ := diffRegime_ok_iff.mp h
  have hz : dt.zip xs = (dt.zip xs).take r ++ (dt.zip xs).drop r := (List.take_append_drop r _).symm
  unfold fittedPart
  rw [hz, List.filter_append]
  have hf1 : ((dt.zip xs).take r).filter (fun p => decide (s ≤ p.1)) = [] := by
    rw [List.filter_eq_nil_iff]
    intro p hp
    obtain ⟨i, hi, rfl⟩ := List.getElem_of_mem hp
    have hir : i < r := by rw [List.length_take] at hi; omega
    simp only [List.getElem_take, List.getElem_zip, decide_eq_true_eq, not_le]
    exact h2 i hir
  have hf2 : ((dt.zip xs).drop r).filter (fun p => decide (s ≤ p.1)) = (dt.zip xs).drop r := by
    rw [List.filter_eq_self]
    intro p hp
    obtain ⟨i, hi, rfl⟩ := List.getElem_of_mem hp
    simp only [List.getElem_drop, List.getElem_zip, decide_eq_true_eq]
    rw [List.length_drop, List.length_zip] at hi
    refine h1.trans ?_
    rcases Nat.eq_zero_or_pos i with h0 | h0
    · subst h0; exact le_refl _
    · exact List.pairwise_iff_getElem.mp hs r (r + i) hr (by omega) (by omega)
  rw [hf1, hf2, List.nil_append, List.map_drop]
  congr 1
  rw [List.map_snd_zip]
  omega

/-- The object with everything before `start` removed. -/
def restrictBoot (start : K) (b : Boot K) : Boot K :=
  { b with dt := fittedPart start b.dt b.dt, n := fittedPart start b.dt b.n, v := fittedPart start b.dt b.v, nO := fittedPart start b.dt b.nO }

theorem diffRegime_drop {dt : List K} {s : K} {r : ℕ} (h : diffRegime dt s = .ok r) : diffRegime (dt.drop r) s = .ok 0 := by
  obtain ⟨hr, h1, h2⟩ := diffRegime_ok_iff.mp h
  rw [diffRegime_ok_iff]
  refine ⟨by rw [List.length_drop]; omega, by simpa using h1, fun j hj => by omega⟩

/-- Two objects with the same results. -/
def SameResults (b b' : Boot K) : Prop :=
  b.startDt = b'.startDt ∧ b.model = b'.model ∧ b.condMax = b'.condMax ∧ b.popt = b'.popt ∧ b.modelV = b'.modelV ∧
  b.npdCovariance = b'.npdCovariance ∧ b.covariance = b'.covariance ∧ b.flatchain = b'.flatchain ∧ b.gradient = b'.gradient ∧
  b.intercept = b'.intercept

/-- A fit sees the data only through what follows the start index. -/
theorem chooseVariances_drop (L : GlsLib K) (model : Bool) (b b' : Boot K) (r r' : ℕ) (hdt : b.dt.drop r = b'.dt.drop r')
    (hv : b.v.drop r = b'.v.drop r') (ho : b.nO.drop r = b'.nO.drop r') (hsame : SameResults b b') :
    (chooseVariances L model b r).2 = (chooseVariances L model b' r').2 ∧
    SameResults (chooseVariances L model b r).1 (chooseVariances L model b' r').1 := by
  obtain ⟨h1, h2, h3, h4, h5, h6, h7, h8, h9, h10⟩ := hsame
  unfold chooseVariances modelBranch
  rw [hdt, hv, ho]
  cases model with
  | false =>
    rw [if_neg Bool.false_ne_true, if_neg Bool.false_ne_true]
    exact ⟨rfl, h1, h2, h3, h4, rfl, h6, h7, h8, h9, h10⟩
  | true =>
    rw [if_pos rfl, if_pos rfl]
    cases L.curveFit (b'.nO.drop r') (b'.dt.drop r') (b'.v.drop r') with
    | error e => exact ⟨rfl, h1, h2, h3, h4, h5, h6, h7, h8, h9, h10⟩
    | ok a =>
      simp only
      cases modelVariance (b'.nO.drop r') (b'.dt.drop r') a with
      | error e => exact ⟨rfl, h1, h2, h3, rfl, h5, h6, h7, h8, h9, h10⟩
      | ok v => exact ⟨rfl, h1, h2, h3, rfl, rfl, h6, h7, h8, h9, h10⟩

theorem generateCovariance_drop (L : GlsLib K) (a : GlsArgs K) (b b' : Boot K) (r r' : ℕ) (hdt : b.dt.drop r = b'.dt.drop r')
    (hv : b.v.drop r = b'.v.drop r') (ho : b.nO.drop r = b'.nO.drop r') (hsame : SameResults b b') :
    (generateCovariance L a b r).2 = (generateCovariance L a b' r').2 ∧
    SameResults (generateCovariance L a b r).1 (generateCovariance L a b' r').1 := by
  obtain ⟨g1, g2⟩ := chooseVariances_drop L a.model b b' r r' hdt hv ho hsame
  unfold generateCovariance
  cases hc : chooseVariances L a.model b r with
  | mk b1 o =>
  cases hc' : chooseVariances L a.model b' r' with
  | mk b1' o' =>
  obtain ⟨⟨_, _, _, _, _, _, _, e1⟩, -⟩ := chooseVariances_pre hc
  obtain ⟨⟨_, _, _, _, _, _, _, e2⟩, -⟩ := chooseVariances_pre hc'
  have n1 : b1.nO = b.nO := by rw [e1]
  have n2 : b1'.nO = b'.nO := by rw [e2]
  rw [hc, hc'] at g1 g2
  simp only at g1 g2
  subst g1
  obtain ⟨h1, h2, h3, h4, h5, h6, h7, h8, h9, h10⟩ := g2
  cases o with
  | error e => exact ⟨rfl, h1, h2, h3, h4, h5, h6, h7, h8, h9, h10⟩
  | ok v =>
    simp only
    rw [n1, n2, ho]
    cases populateCovariance v (b'.nO.drop r') with
    | error e => exact ⟨rfl, h1, h2, h3, h4, h5, h6, h7, h8, h9, h10⟩
    | ok M =>
      simp only
      cases condition L v.length M a.condMax with
      | error e => exact ⟨rfl, h1, h2, h3, h4, h5, rfl, rfl, h8, h9, h10⟩
      | ok A => exact ⟨rfl, h1, h2, h3, h4, h5, rfl, rfl, h8, h9, h10⟩

theorem storeChain_same (L : GlsLib K) (fi : Bool) (chain : List (List K)) (b b' : Boot K) (h : SameResults b b') :
    (storeChain L fi chain b).2 = (storeChain L fi chain b').2 ∧ SameResults (storeChain L fi chain b).1 (storeChain L fi chain b').1 := by
  obtain ⟨h1, h2, h3, h4, h5, h6, h7, h8, h9, h10⟩ := h
  unfold storeChain
  simp only
  cases chainColumn L 0 chain with
  | error e => exact ⟨rfl, h1, h2, h3, h4, h5, h6, h7, rfl, h9, h10⟩
  | ok g =>
    simp only
    cases fi with
    | false => exact ⟨rfl, h1, h2, h3, h4, h5, h6, h7, rfl, rfl, rfl⟩
    | true =>
      simp only [if_true]
      cases chainColumn L 1 chain with
      | error e => exact ⟨rfl, h1, h2, h3, h4, h5, h6, h7, rfl, rfl, rfl⟩
      | ok c => exact ⟨rfl, h1, h2, h3, h4, h5, h6, h7, rfl, rfl, rfl⟩

/-- **C44.** For ascending intervals the fit uses exactly the intervals `dt ≥ start_dt`: the outcome and all results are the same
as for an object from which everything before `start_dt` has been removed. -/
theorem C44_fit_window (L : GlsLib K) (a : GlsArgs K) (b : Boot K) (hs : b.dt.Pairwise (· ≤ ·)) (hn : b.n.length = b.dt.length)
    (hv : b.v.length = b.dt.length) (ho : b.nO.length = b.dt.length) :
    (bootstrapGLS L a b).2 = (bootstrapGLS L a (restrictBoot a.startDt b)).2 ∧
    SameResults (bootstrapGLS L a b).1 (bootstrapGLS L a (restrictBoot a.startDt b)).1 := by
  unfold bootstrapGLS
  rw [show (markFit a b).dt = b.dt from rfl, show (markFit a (restrictBoot a.startDt b)).dt = (restrictBoot a.startDt b).dt from rfl]
  cases hr : diffRegime b.dt a.startDt with
  | error e =>
    have hall := (diffRegime_error_iff.mp hr).2
    have : fittedPart a.startDt b.dt b.dt = [] := by
      unfold fittedPart
      rw [List.map_eq_nil_iff, List.filter_eq_nil_iff]
      intro p hp
      have := hall p.1 (List.of_mem_zip hp).1
      simpa using this
    have hr' : diffRegime (restrictBoot a.startDt b).dt a.startDt = .error .indexError := by
      rw [diffRegime_error_iff]
      refine ⟨rfl, ?_⟩
      show ∀ x ∈ fittedPart a.startDt b.dt b.dt, _
      rw [this]; intro x hx; cases hx
    rw [hr']
    obtain ⟨rfl, -⟩ := diffRegime_error_iff.mp hr
    exact ⟨rfl, rfl, rfl, rfl, rfl, rfl, rfl, rfl, rfl, rfl, rfl⟩
  | ok r =>
    have fp := fun {α : Type} (xs : List α) hl => fittedPart_drop (α := α) hs hr xs hl
    have e1 : (restrictBoot a.startDt b).dt = b.dt.drop r := fp b.dt rfl
    have e2 : (restrictBoot a.startDt b).n = b.n.drop r := fp b.n hn
    have e3 : (restrictBoot a.startDt b).v = b.v.drop r := fp b.v hv
    have e4 : (restrictBoot a.startDt b).nO = b.nO.drop r := fp b.nO ho
    rw [show diffRegime (restrictBoot a.startDt b).dt a.startDt = .ok 0 by rw [e1]; exact diffRegime_drop hr]
    simp only [fitFrom]
    obtain ⟨g1, g2⟩ := generateCovariance_drop L a (markFit a b)
      (markFit a (restrictBoot a.startDt b)) r 0
      (by simp only [List.drop_zero]; exact e1.symm) (by simp only [List.drop_zero]; exact e3.symm)
      (by simp only [List.drop_zero]; exact e4.symm) ⟨rfl, rfl, rfl, rfl, rfl, rfl, rfl, rfl, rfl, rfl⟩
    cases hc : generateCovariance L a (markFit a b) r with
    | mk b2 o =>
    cases hc' : generateCovariance L a (markFit a (restrictBoot a.startDt b)) 0 with
    | mk b2' o' =>
    obtain ⟨⟨_, _, _, _, _, _, _, p1⟩, -⟩ := generateCovariance_pre hc
    obtain ⟨⟨_, _, _, _, _, _, _, p2⟩, -⟩ := generateCovariance_pre hc'
    rw [hc, hc'] at g1 g2
    simp only at g1 g2
    subst g1
    obtain ⟨h1, h2, h3, h4, h5, h6, h7, h8, h9, h10⟩ := g2
    cases o with
    | error e => exact ⟨rfl, h1, h2, h3, h4, h5, h6, h7, h8, h9, h10⟩
    | ok mc =>
      obtain ⟨m, cov⟩ := mc
      simp only
      have d1 : b2.dt.drop r = b2'.dt.drop 0 := by rw [p1, p2]; simp only [List.drop_zero]; exact e1.symm
      have d2 : b2.n.drop r = b2'.n.drop 0 := by rw [p1, p2]; simp only [List.drop_zero]; exact e2.symm
      rw [d1, d2]
      cases sampleChain L a (b2'.dt.drop 0) (b2'.n.drop 0) m cov with
      | error e => exact ⟨rfl, h1, h2, h3, h4, h5, h6, rfl, h8, h9, h10⟩
      | ok chain => exact storeChain_same L a.fitIntercept chain _ _ ⟨h1, h2, h3, h4, h5, h6, rfl, h8, h9, h10⟩

/-- **C44, data of the fit.** A successful fit samples the likelihood of the points `(dt, n)` with `dt ≥ start_dt`, all of them, under a covariance matrix with one row per
such point. -/
theorem C44_fit_points {L : GlsLib K} {a : GlsArgs K} {b b' : Boot K} (hs : b.dt.Pairwise (· ≤ ·)) (hn : b.n.length = b.dt.length)
    (hv : b.v.length = b.dt.length) (ho : b.nO.length = b.dt.length) (h : bootstrapGLS L a b = (b', .ok ())) :
    (∃ x ∈ b.dt, a.startDt ≤ x) ∧
    ∃ (m : ℕ) (cov : Matrix (Fin m) (Fin m) K) (chain : List (List K)),
      m = (b.dt.filter fun x => decide (a.startDt ≤ x)).length ∧ b'.covariance = some (rowsOf cov) ∧
      sampleChain L a (fittedPart a.startDt b.dt b.dt) (fittedPart a.startDt b.dt b.n) m cov = .ok chain ∧ b'.flatchain = some chain := by
  obtain ⟨-, -, -, -, r, m, cov, chain, g, b1, b2, h1, rfl, h3, h4, h5, h6, -⟩ := bootstrapGLS_ok h
  obtain ⟨hr, h7, -⟩ := diffRegime_ok_iff.mp h1
  refine ⟨⟨_, List.getElem_mem hr, h7⟩, m, cov, chain, ?_, ?_, ?_, h6⟩
  · rw [generateCovariance_size h3 ho hv]
    show (b.dt.drop r).length = _
    rw [← fittedPart_drop hs h1 b.dt rfl]
    unfold fittedPart
    rw [List.length_map]
    have : b.dt = (b.dt.zip b.dt).map Prod.fst := by rw [List.map_fst_zip]; exact le_refl _
    conv_rhs => rw [this, List.filter_map, List.length_map]
    rfl
  · rw [h4]
    unfold matrixRows rowsOf
    rw [List.ofFn_eq_map]
    congr 1
    apply List.map_congr_left
    intro i _
    rw [List.ofFn_eq_map]
  · rw [fittedPart_drop hs h1 _ rfl, fittedPart_drop hs h1 _ hn]
    exact h5

/-- **C44, no interval.** IndexError exactly in this case as far as the start index is concerned: without an interval from `start_dt` on, the fit raises
IndexError. -/
theorem C44_no_interval (L : GlsLib K) (a : GlsArgs K) (b : Boot K) (h : ∀ x ∈ b.dt, x < a.startDt) :
    (bootstrapGLS L a b).2 = .error .indexError := by
  unfold bootstrapGLS
  rw [show diffRegime (markFit a b).dt a.startDt = .error .indexError from diffRegime_error_iff.mpr ⟨rfl, h⟩]

/-! ## C45 -/

theorem form_add_right {m : ℕ} (P : Matrix (Fin m) (Fin m) K) (x y z : Fin m → K) :
    form P x (fun i => y i + z i) = form P x y + form P x z := by
  unfold form
  rw [← Finset.sum_add_distrib]
  apply Finset.sum_congr rfl; intro i _
  rw [← Finset.sum_add_distrib]
  apply Finset.sum_congr rfl; intro j _
  ring

theorem form_smul_left {m : ℕ} (P : Matrix (Fin m) (Fin m) K) (c : K) (x y : Fin m → K) :
    form P (fun i => c * x i) y = c * form P x y := by
  unfold form
  rw [Finset.mul_sum]
  apply Finset.sum_congr rfl; intro i _
  rw [Finset.mul_sum]
  apply Finset.sum_congr rfl; intro j _
  ring

theorem form_comm {m : ℕ} (P : Matrix (Fin m) (Fin m) K) (hs : ∀ i j, P i j = P j i) (x y : Fin m → K) : form P x y = form P y x := by
  unfold form
  rw [Finset.sum_comm]
  apply Finset.sum_congr rfl; intro i _
  apply Finset.sum_congr rfl; intro j _
  rw [hs j i]; ring

theorem form_add_left {m : ℕ} (P : Matrix (Fin m) (Fin m) K) (hs : ∀ i j, P i j = P j i) (x y z : Fin m → K) :
    form P (fun i => x i + y i) z = form P x z + form P y z := by
  rw [form_comm P hs, form_add_right, form_comm P hs z x, form_comm P hs z y]

theorem dot_mulVec_form {m : ℕ} (P : Matrix (Fin m) (Fin m) K) (x : Fin m → K) : dotProduct x (P.mulVec x) = form P x x := by
  unfold form dotProduct Matrix.mulVec dotProduct
  apply Finset.sum_congr rfl; intro i _
  rw [Finset.mul_sum]
  apply Finset.sum_congr rfl; intro j _
  ring

theorem logLikelihood_eq {m : ℕ} (logdet : K) (P : Matrix (Fin m) (Fin m) K) (t y : Fin m → K) (θ : List K) (h : 0 ≤ θ.getD 0 0) :
    logLikelihood logdet P t y θ = some (-(1 / 2) * (logdet + form P (lineResidual t y (θ.getD 0 0) (θ.getD 1 0)) (lineResidual t y (θ.getD 0 0) (θ.getD 1 0)))) := by
  unfold logLikelihood
  rw [if_neg (not_lt.mpr h)]
  simp only
  rw [dot_mulVec_form]
  congr 3
  have : (fun i => straightLine (t i) θ - y i) = fun i => (-1) * lineResidual t y (θ.getD 0 0) (θ.getD 1 0) i := by
    funext i; unfold straightLine lineResidual; ring
  rw [this, form_smul_left]
  have h2 : form P (lineResidual t y (θ.getD 0 0) (θ.getD 1 0)) (fun i => (-1) * lineResidual t y (θ.getD 0 0) (θ.getD 1 0) i)
      = - form P (lineResidual t y (θ.getD 0 0) (θ.getD 1 0)) (lineResidual t y (θ.getD 0 0) (θ.getD 1 0)) := by
    unfold form
    rw [← Finset.sum_neg_distrib]
    apply Finset.sum_congr rfl; intro i _
    rw [← Finset.sum_neg_distrib]
    apply Finset.sum_congr rfl; intro j _
    ring
  rw [h2]; ring

/-- **C45, negative gradients.** Exactly the lines with negative gradient have log-likelihood minus infinity, and the value of the others is the Gaussian
log-likelihood. -/
theorem C45_negative {m : ℕ} (logdet : K) (P : Matrix (Fin m) (Fin m) K) (t y : Fin m → K) (g : K) (rest : List K) :
    (logLikelihood logdet P t y (g :: rest) = none ↔ g < 0) := by
  unfold logLikelihood
  simp only [List.getD_cons_zero]
  split_ifs with h
  · simp [h]
  · simp [h]

/-- Expansion of the form around the solution. -/
theorem form_expand {m : ℕ} (P : Matrix (Fin m) (Fin m) K) (hs : ∀ i j, P i j = P j i) (t y : Fin m → K) (g c g' c' : K) :
    form P (lineResidual t y g' c') (lineResidual t y g' c') = form P (lineResidual t y g c) (lineResidual t y g c)
      + 2 * ((g - g') * form P t (lineResidual t y g c) + (c - c') * form P (fun _ => 1) (lineResidual t y g c))
      + form P (fun i => (g - g') * t i + (c - c')) (fun i => (g - g') * t i + (c - c')) := by
  have hr : lineResidual t y g' c' = fun i => lineResidual t y g c i + ((g - g') * t i + (c - c')) := by
    funext i; unfold lineResidual; ring
  rw [hr, form_add_right]
  rw [form_add_left P hs (lineResidual t y g c) (fun i => (g - g') * t i + (c - c')) (lineResidual t y g c),
    form_add_left P hs (lineResidual t y g c) (fun i => (g - g') * t i + (c - c')) (fun i => (g - g') * t i + (c - c')),
    form_comm P hs (lineResidual t y g c) (fun i => (g - g') * t i + (c - c'))]
  have : form P (fun i => (g - g') * t i + (c - c')) (lineResidual t y g c)
      = (g - g') * form P t (lineResidual t y g c) + (c - c') * form P (fun _ => 1) (lineResidual t y g c) := by
    rw [form_add_left P hs (fun i => (g - g') * t i) (fun _ => c - c'), form_smul_left]
    congr 1
    rw [← form_smul_left]
    congr 1
    funext i; ring
  rw [this]; ring

/-- **C45.** With intercept: a line with non-negative gradient solving the normal equations has the highest log-likelihood; it is the only one with that
value if the matrix is positive definite and two intervals differ. -/
theorem C45_maximum {m : ℕ} (logdet : K) (P : Matrix (Fin m) (Fin m) K) (hs : ∀ i j, P i j = P j i) (hP : PSD P) (t y : Fin m → K) (g c : K)
    (hg : 0 ≤ g) (hN : NormalEquations P t y g c) :
    ∃ best, logLikelihood logdet P t y [g, c] = some best ∧
      (∀ g' c' l, logLikelihood logdet P t y [g', c'] = some l → l ≤ best) ∧
      (PD P → (∃ i j, t i ≠ t j) → ∀ g' c', logLikelihood logdet P t y [g', c'] = some best → g' = g ∧ c' = c) := by
  have hval : ∀ g' c', 0 ≤ g' → logLikelihood logdet P t y [g', c'] =
      some (-(1 / 2) * (logdet + form P (lineResidual t y g' c') (lineResidual t y g' c'))) := fun g' c' h => logLikelihood_eq logdet P t y [g', c'] h
  have hnn : ∀ g' c' l, logLikelihood logdet P t y [g', c'] = some l → 0 ≤ g' := by
    intro g' c' l h
    by_contra hlt
    rw [(C45_negative logdet P t y g' [c']).mpr (not_le.mp hlt)] at h
    cases h
  refine ⟨_, hval g c hg, ?_, ?_⟩
  · intro g' c' l h
    have h0 := hnn g' c' l h
    rw [hval g' c' h0] at h
    rw [← Option.some.inj h, form_expand P hs t y g c g' c', hN.1, hN.2]
    have := hP fun i => (g - g') * t i + (c - c')
    have h2 : 0 ≤ form P (fun i => (g - g') * t i + (c - c')) (fun i => (g - g') * t i + (c - c')) := this
    nlinarith
  · intro hpd hne g' c' h
    have h0 := hnn g' c' _ h
    rw [hval g' c' h0, form_expand P hs t y g c g' c', hN.1, hN.2] at h
    have h1 := Option.some.inj h
    have h2 : form P (fun i => (g - g') * t i + (c - c')) (fun i => (g - g') * t i + (c - c')) = 0 := by linarith
    have h3 : (fun i => (g - g') * t i + (c - c')) = 0 := by
      by_contra hx
      have : 0 < form P (fun i => (g - g') * t i + (c - c')) (fun i => (g - g') * t i + (c - c')) := hpd _ hx
      rw [h2] at this
      exact lt_irrefl _ this
    obtain ⟨i, j, hij⟩ := hne
    have hi := congrFun h3 i
    have hj := congrFun h3 j
    simp only [Pi.zero_apply] at hi hj
    have h4 : (g - g') * (t i - t j) = 0 := by linear_combination hi - hj
    have h5 : g - g' = 0 := (mul_eq_zero.mp h4).resolve_right (sub_ne_zero.mpr hij)
    rw [h5, zero_mul, zero_add] at hi
    constructor
    · linarith
    · linarith

/-- **C45, converse.** A line of positive gradient with the highest log-likelihood solves the normal equations. -/
theorem C45_maximum_normal {m : ℕ} (logdet : K) (P : Matrix (Fin m) (Fin m) K) (hs : ∀ i j, P i j = P j i) (hP : PSD P) (t y : Fin m → K) (g c : K)
    (hg : 0 < g) (best : K) (hb : logLikelihood logdet P t y [g, c] = some best)
    (hmax : ∀ g' c' l, logLikelihood logdet P t y [g', c'] = some l → l ≤ best) : NormalEquations P t y g c := by
  have hval : ∀ g' c', 0 ≤ g' → logLikelihood logdet P t y [g', c'] =
      some (-(1 / 2) * (logdet + form P (lineResidual t y g' c') (lineResidual t y g' c'))) := fun g' c' h => logLikelihood_eq logdet P t y [g', c'] h
  rw [hval g c hg.le] at hb
  have hbest := Option.some.inj hb
  -- along each direction the quadratic has a non-negative value for small steps of both signs
  have key : ∀ A B ε : K, 0 < ε → 0 ≤ B → (∀ s : K, |s| ≤ ε → 0 ≤ 2 * (s * A) + s ^ 2 * B) → A = 0 := by
    intro A B ε hε hB h
    by_contra hA
    rcases lt_or_gt_of_ne hA with hA | hA
    · -- A < 0: take small positive s
      have hq : 0 < (B + 1) := by linarith
      set s := min ε (-A / (B + 1)) with hsdef
      have hs0 : 0 < s := lt_min hε (div_pos (by linarith) hq)
      have h1 := h s (by rw [abs_of_pos hs0]; exact min_le_left _ _)
      have h2 : s * (B + 1) ≤ -A := by
        have := min_le_right ε (-A / (B + 1))
        rw [← hsdef] at this
        exact (le_div_iff₀ hq).mp this
      have h3 : s * B < -A := by nlinarith
      nlinarith
    · have hq : 0 < (B + 1) := by linarith
      set s := min ε (A / (B + 1)) with hsdef
      have hs0 : 0 < s := lt_min hε (div_pos hA hq)
      have h1 := h (-s) (by rw [abs_neg, abs_of_pos hs0]; exact min_le_left _ _)
      have h2 : s * (B + 1) ≤ A := by
        have := min_le_right ε (A / (B + 1))
        rw [← hsdef] at this
        exact (le_div_iff₀ hq).mp this
      have h3 : s * B < A := by nlinarith
      nlinarith
  have grow : ∀ g' c', 0 ≤ g' → 0 ≤ 2 * ((g - g') * form P t (lineResidual t y g c) + (c - c') * form P (fun _ => 1) (lineResidual t y g c))
      + form P (fun i => (g - g') * t i + (c - c')) (fun i => (g - g') * t i + (c - c')) := by
    intro g' c' h0
    have h1 := hmax g' c' _ (hval g' c' h0)
    rw [← hbest, form_expand P hs t y g c g' c'] at h1
    linarith
  have sq : ∀ (s : K) (x : Fin m → K), form P (fun i => s * x i) (fun i => s * x i) = s ^ 2 * form P x x := by
    intro s x
    rw [form_smul_left, form_comm P hs, form_smul_left]; ring
  constructor
  · apply key _ (form P t t) g hg (hP t)
    intro s hs1
    have := grow (g - s) c (by have := (abs_le.mp hs1).2; linarith)
    rw [sub_sub_cancel, sub_self, zero_mul, add_zero] at this
    have h2 := sq s t
    simp only [add_zero] at this
    rw [h2] at this
    exact this
  · apply key _ (form P (fun _ => 1) (fun _ => 1)) 1 one_pos (hP _)
    intro s _
    have := grow g (c - s) hg.le
    rw [sub_sub_cancel, sub_self, zero_mul, zero_add] at this
    have h2 := sq s fun _ => 1
    simp only [mul_one] at h2
    simp only [zero_mul, zero_add] at this
    rw [h2] at this
    exact this

/-- **C45, without intercept.** -/
theorem C45_maximum_no_intercept {m : ℕ} (logdet : K) (P : Matrix (Fin m) (Fin m) K) (hs : ∀ i j, P i j = P j i) (hP : PSD P) (t y : Fin m → K)
    (g : K) (hg : 0 ≤ g) (hN : NormalEquation P t y g) :
    ∃ best, logLikelihood logdet P t y [g] = some best ∧
      (∀ g' l, logLikelihood logdet P t y [g'] = some l → l ≤ best) ∧
      (PD P → (∃ i, t i ≠ 0) → ∀ g', logLikelihood logdet P t y [g'] = some best → g' = g) := by
  have hval : ∀ g', 0 ≤ g' → logLikelihood logdet P t y [g'] =
      some (-(1 / 2) * (logdet + form P (lineResidual t y g' 0) (lineResidual t y g' 0))) := fun g' h => logLikelihood_eq logdet P t y [g'] h
  have hnn : ∀ g' l, logLikelihood logdet P t y [g'] = some l → 0 ≤ g' := by
    intro g' l h
    by_contra hlt
    rw [(C45_negative logdet P t y g' []).mpr (not_le.mp hlt)] at h
    cases h
  have hN' : form P t (lineResidual t y g 0) = 0 := hN
  refine ⟨_, hval g hg, ?_, ?_⟩
  · intro g' l h
    have h0 := hnn g' l h
    rw [hval g' h0] at h
    rw [← Option.some.inj h, form_expand P hs t y g 0 g' 0, hN', mul_zero, sub_self, zero_mul]
    have h2 : 0 ≤ form P (fun i => (g - g') * t i + 0) (fun i => (g - g') * t i + 0) := hP _
    linarith
  · intro hpd hne g' h
    have h0 := hnn g' _ h
    rw [hval g' h0, form_expand P hs t y g 0 g' 0, hN', mul_zero, sub_self, zero_mul] at h
    have h1 := Option.some.inj h
    have h2 : form P (fun i => (g - g') * t i + 0) (fun i => (g - g') * t i + 0) = 0 := by linarith
    have h3 : (fun i => (g - g') * t i + (0 : K)) = 0 := by
      by_contra hx
      have : 0 < form P (fun i => (g - g') * t i + 0) (fun i => (g - g') * t i + 0) := hpd _ hx
      rw [h2] at this
      exact lt_irrefl _ this
    obtain ⟨i, hi⟩ := hne
    have hi' := congrFun h3 i
    simp only [Pi.zero_apply, add_zero] at hi'
    have := (mul_eq_zero.mp hi').resolve_right hi
    linarith

/-- Intervals 1, 2, 4, data 3, 5, 8, identity weights: gradient 23/14, intercept 3/2. -/
example : NormalEquations (fun i j : Fin 3 => if i = j then (1 : ℚ) else 0) ![1, 2, 4] ![3, 5, 8] (23 / 14) (3 / 2) := by
  constructor <;> (simp [form, lineResidual, Fin.sum_univ_three]; norm_num)

end Kinisi

import Verif.Spec.Units
import Verif.Lemmas.GLS
import Verif.Lemmas.Parser

/-!
# How the steps of the fit change with the units
-/

set_option linter.unusedSectionVars false
set_option linter.unusedVariables false

namespace Kinisi
open Spec
variable {K : Type} [Field K] [LinearOrder K] [IsStrictOrderedRing K] [FloorRing K]

theorem diffRegime_units {tau : K} (ht : 0 < tau) (dt : List K) (s : K) : diffRegime (dt.map (tau * ·)) (tau * s) = diffRegime dt s := by
  unfold diffRegime
  have : (dt.map (tau * ·)).findIdx? (fun x => decide (tau * s ≤ x)) = dt.findIdx? fun x => decide (s ≤ x) := by
    rw [List.findIdx?_map]
    congr 1
    funext x
    simp only [Function.comp]
    rw [decide_eq_decide]
    exact mul_le_mul_iff_right₀ ht
  rw [this]

theorem npMul_scale (c : K) (x y : Option K) : npMul x (y.map (c * ·)) = (npMul x y).map (c * ·) := by
  cases x with
  | none => rfl
  | some x =>
    cases y with
    | none => rfl
    | some y => simp only [npMul, Option.bind_some, Option.map_some]; congr 1; ring

theorem setEntry_map {α β : Type} (f : α → β) (M : List (List α)) (i j : ℕ) (x : α) :
    setEntry (M.map (List.map f)) i j (f x) = (setEntry M i j x).map (List.map f) := by
  unfold setEntry
  apply List.ext_getElem?
  intro k
  rw [List.getElem?_modify, List.getElem?_map, List.getElem?_map, List.getElem?_modify]
  by_cases h : i = k
  · subst h
    cases M[i]? with
    | none => rfl
    | some r => simp [List.map_set]
  · simp [h]

theorem covStep_scale (c : K) (v : List (Option K)) (n : List K) (i : ℕ) (M : List (List (Option K))) (j : ℕ) :
    covStep (v.map (Option.map (c * ·))) n i (M.map (List.map (Option.map (c * ·)))) j =
      (covStep v n i M j).map (List.map (List.map (Option.map (c * ·)))) := by
  unfold covStep
  simp only [bind, Except.bind]
  cases pyGet n i with
  | error e => rfl
  | ok ni =>
  cases pyGet n j with
  | error e => rfl
  | ok nj =>
  have : pyGet (v.map (Option.map (c * ·))) i = (pyGet v i).map (Option.map (c * ·)) := by
    unfold pyGet
    rw [List.getElem?_map]
    cases v[i]? <;> rfl
  simp only [this]
  cases pyGet v i with
  | error e => rfl
  | ok vi =>
    simp only [Except.map]
    rw [npMul_scale, setEntry_map, setEntry_map]

theorem foldlM_scale {α β : Type} (φ : β → β) (f g : β → α → PyM β) (h : ∀ b a, g (φ b) a = (f b a).map φ) (l : List α) (b : β) :
    l.foldlM g (φ b) = (l.foldlM f b).map φ := by
  induction l generalizing b with
  | nil => rfl
  | cons a l ih =>
    rw [List.foldlM_cons, List.foldlM_cons, h]
    cases f b a with
    | error e => rfl
    | ok b1 => exact ih b1

theorem populateCovariance_scale (c : K) (v : List (Option K)) (n : List K) :
    populateCovariance (v.map (Option.map (c * ·))) n = (populateCovariance v n).map (List.map (List.map (Option.map (c * ·)))) := by
  unfold populateCovariance
  have h0 : List.replicate (v.map (Option.map (c * ·))).length (List.replicate (v.map (Option.map (c * ·))).length (some (0 : K))) =
      (List.replicate v.length (List.replicate v.length (some (0 : K)))).map (List.map (Option.map (c * ·))) := by
    rw [List.map_replicate, List.map_replicate, List.length_map]; simp
  rw [h0, List.length_map]
  apply foldlM_scale
  intro M i
  unfold covRow
  rw [List.length_map]
  exact foldlM_scale _ _ _ (covStep_scale c v n i) _ _

theorem getEntry_map {α β : Type} (f : α → β) (M : List (List α)) (i j : ℕ) : getEntry (M.map (List.map f)) i j = (getEntry M i j).map f := by
  unfold getEntry
  rw [List.getElem?_map]
  cases M[i]? with
  | none => rfl
  | some r => simp

theorem finiteMatrix_scale (c : K) (m : ℕ) (M : List (List (Option K))) :
    finiteMatrix m (M.map (List.map (Option.map (c * ·)))) = (finiteMatrix m M).map (c • ·) := by
  unfold finiteMatrix
  have h1 : ∀ i j, ((getEntry (M.map (List.map (Option.map (c * ·)))) i j).bind id) = ((getEntry M i j).bind id).map (c * ·) := by
    intro i j
    rw [getEntry_map]
    cases getEntry M i j with
    | none => rfl
    | some x => rfl
  simp only [h1, Option.isSome_map]
  split_ifs with h
  · refine congrArg some ?_
    funext i j
    simp only [List.all_eq_true, List.mem_finRange, true_implies] at h
    have := h i j
    cases hx : (getEntry M i j).bind id with
    | none => rw [hx] at this; cases this
    | some x =>
      show c * x = c * (((getEntry M i j).bind id).getD 0)
      rw [hx]; rfl
  · rfl

theorem clipped_scale {m : ℕ} {c : K} (hc : 0 < c) (ev : Fin (m + 1) → K) (condMax : K) :
    clippedEigenvalues (fun k => c * ev k) condMax = fun k => c * clippedEigenvalues ev condMax k := by
  funext k
  unfold clippedEigenvalues
  have : c * ev 0 / condMax = c * (ev 0 / condMax) := by ring
  rw [this]
  by_cases h : ev k < ev 0 / condMax
  · rw [if_pos h, if_pos (mul_lt_mul_of_pos_left h hc)]
  · rw [if_neg h, if_neg (by rw [not_lt] at h ⊢; exact mul_le_mul_of_nonneg_left h hc.le)]

theorem minimumEigenvalueMethod_scale {m : ℕ} {c : K} (hc : 0 < c)
    {eig eig' : Matrix (Fin (m + 1)) (Fin (m + 1)) K → PyM ((Fin (m + 1) → K) × Matrix (Fin (m + 1)) (Fin (m + 1)) K)}
    (h : ∀ A, eig' (c • A) = (eig A).map fun p => (fun k => c * p.1 k, p.2)) (A : Matrix (Fin (m + 1)) (Fin (m + 1)) K) (condMax : K) :
    minimumEigenvalueMethod eig' (c • A) condMax = (minimumEigenvalueMethod eig A condMax).map (c • ·) := by
  unfold minimumEigenvalueMethod
  rw [h]
  cases eig A with
  | error e => rfl
  | ok p =>
    obtain ⟨ev, V⟩ := p
    simp only [Except.map]
    split_ifs with h0
    · rfl
    · simp only [Except.ok.injEq]
      rw [clipped_scale hc]
      have : (Matrix.diagonal fun k => c * clippedEigenvalues ev condMax k) = c • Matrix.diagonal (clippedEigenvalues ev condMax) := by
        ext i j
        simp only [Matrix.diagonal_apply, Matrix.smul_apply, smul_eq_mul]
        split_ifs <;> simp
      rw [this, Matrix.mul_smul, Matrix.smul_mul]

theorem condition_scale {ell tau : K} (hl : 0 < ell) {L L' : GlsLib K} (hL : SameLib ell tau L L') (m : ℕ) (M : List (List (Option K))) (condMax : K) :
    condition L' m (M.map (List.map (Option.map (ell ^ 2 * ·)))) condMax = (condition L m M condMax).map (ell ^ 2 • ·) := by
  unfold condition
  cases m with
  | zero => rfl
  | succ m =>
    simp only
    rw [finiteMatrix_scale]
    cases finiteMatrix (m + 1) M with
    | none => rfl
    | some A =>
      simp only [Option.map_some]
      rw [minimumEigenvalueMethod_scale (by positivity) (hL.eig m)]
      cases minimumEigenvalueMethod (L.eig m) A condMax with
      | error e => rfl
      | ok B => exact hL.covNearest (m + 1) B

theorem modelVariance_units {ell tau : K} (ht : 0 < tau) (n t : List K) (a : K) :
    modelVariance n (t.map (tau * ·)) (ell ^ 2 / tau ^ 2 * a) = (modelVariance n t a).map (List.map (Option.map (ell ^ 2 * ·))) := by
  have ht' := ht.ne'
  have key : ∀ x y : K, npMul (npDiv (some (ell ^ 2 / tau ^ 2 * a)) (some x)) (some ((tau * y) ^ 2)) =
      (npMul (npDiv (some a) (some x)) (some (y ^ 2))).map (ell ^ 2 * ·) := by
    intro x y
    unfold npDiv npMul
    simp only [Option.bind_some]
    split_ifs with hx
    · rfl
    · simp only [Option.bind_some, Option.map_some, Option.some.injEq]
      field_simp
  unfold modelVariance
  rw [List.length_map]
  split_ifs with h1 h2 h3
  · simp only [Except.map, List.map_map]
    rw [List.zip_map_right, List.map_map]
    congr 1
    apply List.map_congr_left
    intro p _
    exact key p.1 p.2
  · simp only [Except.map, List.map_map]
    congr 1
    apply List.map_congr_left
    intro p _
    exact key _ p
  · simp only [Except.map, List.map_map]
    congr 1
    apply List.map_congr_left
    intro p _
    have : (t.map (tau * ·)).getD 0 0 = tau * t.getD 0 0 := by
      cases t with
      | nil => simp
      | cons x t => rfl
    simp only [Function.comp]
    rw [this]
    exact key p _
  · rfl

theorem chooseVariances_units {ell tau : K} (ht : 0 < tau) {L L' : GlsLib K} (hL : SameLib ell tau L L') {b b' : Boot K}
    (hb : SameCurve ell tau b b') (model : Bool) (r : ℕ) :
    (chooseVariances L' model b' r).2 = (chooseVariances L model b r).2.map (List.map (Option.map (ell ^ 2 * ·))) := by
  unfold chooseVariances modelBranch
  cases model with
  | false =>
    rw [if_neg Bool.false_ne_true, if_neg Bool.false_ne_true, hb.v]
    simp only [Except.map, List.map_drop]
  | true =>
    rw [if_pos rfl, if_pos rfl, hb.v, hb.nO, hb.dt, ← List.map_drop, ← List.map_drop, hL.curveFit]
    cases L.curveFit (b.nO.drop r) (b.dt.drop r) (b.v.drop r) with
    | error e => rfl
    | ok a =>
      simp only [Except.map]
      rw [modelVariance_units ht]
      cases modelVariance (b.nO.drop r) (b.dt.drop r) a <;> rfl

/-- The conditioned matrix with its size. -/
def condOut (L : GlsLib K) (m : ℕ) (M : List (List (Option K))) (condMax : K) : PyM ((m : ℕ) × Matrix (Fin m) (Fin m) K) :=
  (condition L m M condMax).map (Sigma.mk m)

theorem generateCovariance_snd (L : GlsLib K) (a : GlsArgs K) (b : Boot K) (r : ℕ) :
    (generateCovariance L a b r).2 = (chooseVariances L a.model b r).2.bind fun v =>
      (populateCovariance v (b.nO.drop r)).bind fun M => condOut L v.length M a.condMax := by
  unfold generateCovariance condOut
  cases h1 : chooseVariances L a.model b r with
  | mk b1 o =>
  obtain ⟨⟨_, _, _, _, _, _, _, e1⟩, -⟩ := chooseVariances_pre h1
  have n1 : b1.nO = b.nO := by rw [e1]
  cases o with
  | error e => rfl
  | ok v =>
    simp only [n1, Except.bind]
    cases populateCovariance v (b.nO.drop r) with
    | error e => rfl
    | ok M =>
      simp only
      cases condition L v.length M a.condMax with
      | error e => rfl
      | ok A => rfl

/-- The covariance matrix in the new units. -/
theorem generateCovariance_units {ell tau : K} (hl : 0 < ell) (ht : 0 < tau) {L L' : GlsLib K} (hL : SameLib ell tau L L') {b b' : Boot K}
    (hb : SameCurve ell tau b b') {a a' : GlsArgs K} (hm : a'.model = a.model) (hc : a'.condMax = a.condMax) (r : ℕ) :
    (generateCovariance L' a' b' r).2 = (generateCovariance L a b r).2.map fun p => ⟨p.1, ell ^ 2 • p.2⟩ := by
  rw [generateCovariance_snd, generateCovariance_snd, hm, hc, chooseVariances_units ht hL hb, hb.nO]
  cases (chooseVariances L a.model b r).2 with
  | error e => rfl
  | ok v =>
    simp only [Except.map, Except.bind]
    rw [populateCovariance_scale]
    cases populateCovariance v (b.nO.drop r) with
    | error e => rfl
    | ok M =>
      simp only [Except.map, List.length_map]
      unfold condOut
      rw [condition_scale hl hL]
      cases condition L v.length M a.condMax with
      | error e => rfl
      | ok A => rfl

/-! ## The chain -/

theorem newUnits_length (ell tau : K) (θ : List K) : (newUnits ell tau θ).length = θ.length := by
  cases θ <;> simp [newUnits]

theorem newUnits_zero (ell tau : K) (θ : List K) : (newUnits ell tau θ).getD 0 0 = ell / tau * θ.getD 0 0 := by
  cases θ <;> simp [newUnits]

theorem newUnits_one (ell tau : K) (θ : List K) : (newUnits ell tau θ).getD 1 0 = ell * θ.getD 1 0 := by
  match θ with
  | [] => simp [newUnits]
  | [_] => simp [newUnits]
  | _ :: _ :: _ => simp [newUnits]

theorem logLikelihood_units {ell tau : K} (hl : 0 < ell) (ht : 0 < tau) {m : ℕ} (logdet δ : K) (P : Matrix (Fin m) (Fin m) K) (t y : Fin m → K)
    (θ : List K) :
    logLikelihood (logdet + δ) ((ell ^ 2)⁻¹ • P) (fun i => tau * t i) (fun i => ell * y i) (newUnits ell tau θ) =
      (logLikelihood logdet P t y θ).map (· + -(1 / 2) * δ) := by
  have hr : 0 < ell / tau := div_pos hl ht
  unfold logLikelihood
  rw [newUnits_zero]
  by_cases h : θ.getD 0 0 < 0
  · rw [if_pos h, if_pos (mul_neg_of_pos_of_neg hr h)]; rfl
  · rw [if_neg h, if_neg (by rw [not_lt] at h ⊢; exact mul_nonneg hr.le h)]
    simp only [Option.map_some, Option.some.injEq]
    have hd : (fun i => straightLine (tau * t i) (newUnits ell tau θ) - ell * y i) = ell • fun i => straightLine (t i) θ - y i := by
      funext i
      unfold straightLine
      rw [newUnits_zero, newUnits_one]
      simp only [Pi.smul_apply, smul_eq_mul]
      have := ht.ne'
      field_simp
    rw [hd, Matrix.smul_mulVec, Matrix.mulVec_smul, dotProduct_smul, smul_dotProduct, dotProduct_smul]
    simp only [smul_eq_mul]
    have := hl.ne'
    field_simp
    ring

theorem metropolis_units {φ : List K → List K} {ll ll' : List K → Option K} {δ : K} (h : ∀ θ, ll' (φ θ) = (ll θ).map (· + δ)) (u : K) (x y : List K) :
    metropolis ll' u (φ x) (φ y) = φ (metropolis ll u x y) := by
  unfold metropolis
  rw [h, h]
  cases ll y with
  | none => rfl
  | some l1 =>
    cases ll x with
    | none => rfl
    | some l0 =>
      simp only [Option.map_some]
      rw [show l1 + δ - (l0 + δ) = l1 - l0 by ring]
      split_ifs <;> rfl

theorem runChain_units {ell tau : K} {L L' : GlsLib K} (hL : SameLib ell tau L L') {ll ll' : List K → Option K} {δ : K}
    (h : ∀ θ, ll' (newUnits ell tau θ) = (ll θ).map (· + δ)) (n s : ℕ) (ws : List (List K)) :
    runChain L' ll' n s (ws.map (newUnits ell tau)) = (runChain L ll n s ws).map (List.map (newUnits ell tau)) := by
  induction n generalizing s ws with
  | zero => rfl
  | succ n ih =>
    have hstep : ensembleStep L' ll' s (ws.map (newUnits ell tau)) = (ensembleStep L ll s ws).map (newUnits ell tau) := by
      unfold ensembleStep
      rw [List.zipIdx_map, List.map_map, List.map_map]
      apply List.map_congr_left
      intro p _
      simp only [Function.comp, Prod.map, id]
      rw [hL.propose, hL.threshold]
      exact metropolis_units h _ _ _
    simp only [runChain, List.map_cons]
    rw [hstep, ih]

theorem getChain_map {φ : List K → List K} (discard thin : ℕ) (chain : List (List (List K))) :
    getChain discard thin (chain.map (List.map φ)) = (getChain discard thin chain).map (List.map φ) := by
  unfold getChain
  rw [List.length_map]
  split_ifs with h1 h2
  · rfl
  · rfl
  · simp only [Except.map, Except.ok.injEq]
    rw [← List.map_drop, stride_map _ (Nat.pos_of_ne_zero h2), List.map_flatten]

theorem initialWalkers_units {ell tau : K} {L L' : GlsLib K} (hL : SameLib ell tau L L') (nWalkers : ℕ) (ml : List K) :
    initialWalkers L' nWalkers (newUnits ell tau ml) = (initialWalkers L nWalkers ml).map (newUnits ell tau) := by
  unfold initialWalkers
  rw [List.map_map]
  apply List.map_congr_left
  intro w _
  simp only [Function.comp]
  rw [hL.randn]
  cases ml with
  | nil => rfl
  | cons g rest =>
    simp only [newUnits, List.zipIdx_cons, List.map_cons]
    congr 1
    · ring
    · rw [List.zipIdx_map, List.map_map, List.map_map]
      apply List.map_congr_left
      intro p _
      simp only [Function.comp, Prod.map, id]
      ring

theorem getD_scale (c : K) (l : List K) (i : ℕ) : (l.map (c * ·)).getD i 0 = c * l.getD i 0 := by
  simp only [List.getD_eq_getElem?_getD, List.getElem?_map]
  cases l[i]? with
  | none => simp
  | some x => rfl

/-- The samples in the new units. -/
theorem sampleChain_units {ell tau : K} (hl : 0 < ell) (ht : 0 < tau) {L L' : GlsLib K} (hL : SameLib ell tau L L') {a a' : GlsArgs K}
    (ha : a'.fitIntercept = a.fitIntercept ∧ a'.nSamples = a.nSamples ∧ a'.nWalkers = a.nWalkers ∧ a'.nBurn = a.nBurn ∧ a'.thin = a.thin)
    (t y : List K) (m : ℕ) (cov : Matrix (Fin m) (Fin m) K) :
    sampleChain L' a' (t.map (tau * ·)) (y.map (ell * ·)) m (ell ^ 2 • cov) = (sampleChain L a t y m cov).map (List.map (newUnits ell tau)) := by
  obtain ⟨a1, a2, a3, a4, a5⟩ := ha
  obtain ⟨δ, hδ⟩ := hL.slogdet m
  unfold sampleChain
  simp only [bind, Except.bind]
  rw [hδ, hL.pinvh, a1, a2, a3, a4, a5]
  cases L.slogdet m cov with
  | error e => rfl
  | ok logdet =>
  simp only [Except.map]
  cases L.pinvh m cov with
  | error e => rfl
  | ok inv =>
  simp only [List.length_map]
  split_ifs with hlen
  · rfl
  rw [hL.linregress]
  cases L.linregress t y with
  | error e => rfl
  | ok slope =>
  simp only [Except.map]
  have hll : ∀ θ, logLikelihood (logdet + δ) ((ell ^ 2)⁻¹ • inv) (fun i : Fin m => (t.map (tau * ·)).getD i 0) (fun i : Fin m => (y.map (ell * ·)).getD i 0)
      (newUnits ell tau θ) = (logLikelihood logdet inv (fun i : Fin m => t.getD i 0) (fun i : Fin m => y.getD i 0) θ).map (· + -(1 / 2) * δ) := by
    intro θ
    simp only [getD_scale]
    exact logLikelihood_units hl ht logdet δ inv _ _ θ
  rw [hL.minimize _ _ (startPoint a.fitIntercept slope) _ _ hll (by unfold startPoint; cases a.fitIntercept <;> simp)]
  cases L.minimize (logLikelihood logdet inv (fun i : Fin m => t.getD i 0) (fun i : Fin m => y.getD i 0)) (startPoint a.fitIntercept slope) with
  | error e => rfl
  | ok ml =>
  simp only [Except.map]
  rw [initialWalkers_units hL, newUnits_length, hL.emceeCheck]
  cases L.emceeCheck a.nWalkers ml.length (initialWalkers L a.nWalkers ml) with
  | error e => rfl
  | ok u =>
  simp only
  rw [runChain_units hL hll, getChain_map]
  rfl

theorem mapM_map_comm {f g : List K → PyM K} {φ : List K → List K} {ψ : K → K} (h : ∀ x, g (φ x) = (f x).map ψ) (l : List (List K)) :
    (l.map φ).mapM g = (l.mapM f).map (List.map ψ) := by
  induction l with
  | nil => rfl
  | cons x l ih =>
    rw [List.map_cons, List.mapM_cons, List.mapM_cons, h, ih]
    cases f x with
    | error e => rfl
    | ok y =>
      cases l.mapM f with
      | error e => rfl
      | ok ys => rfl

theorem pyGet_newUnits_zero (ell tau : K) (row : List K) : pyGet (newUnits ell tau row) 0 = (pyGet row 0).map (ell / tau * ·) := by
  cases row <;> rfl

theorem pyGet_newUnits_one (ell tau : K) (row : List K) : pyGet (newUnits ell tau row) 1 = (pyGet row 1).map (ell * ·) := by
  match row with
  | [] => rfl
  | [_] => rfl
  | _ :: _ :: _ => rfl

theorem chainColumn_units {ell tau : K} (hl : 0 < ell) (ht : 0 < tau) {L L' : GlsLib K} (hL : SameLib ell tau L L') (chain : List (List K)) :
    chainColumn L' 0 (chain.map (newUnits ell tau)) = (chainColumn L 0 chain).map (List.map (ell / tau * ·)) ∧
    chainColumn L' 1 (chain.map (newUnits ell tau)) = (chainColumn L 1 chain).map (List.map (ell * ·)) := by
  unfold chainColumn
  simp only [bind, Except.bind]
  constructor
  · rw [mapM_map_comm (pyGet_newUnits_zero ell tau)]
    cases chain.mapM (fun row => pyGet row 0) with
    | error e => rfl
    | ok c =>
      simp only [Except.map]
      rw [hL.dist _ _ (div_pos hl ht)]
      cases L.dist c <;> rfl
  · rw [mapM_map_comm (pyGet_newUnits_one ell tau)]
    cases chain.mapM (fun row => pyGet row 1) with
    | error e => rfl
    | ok c =>
      simp only [Except.map]
      rw [hL.dist _ _ hl]
      cases L.dist c <;> rfl

end Kinisi

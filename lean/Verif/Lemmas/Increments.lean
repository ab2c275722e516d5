import Verif.Spec.Increments
import Verif.Props.Units
import Verif.Props.FitRuns

/-!
# The covariance matrix as that of independent increments
-/

set_option linter.unusedSectionVars false
set_option linter.unusedVariables false

namespace Kinisi
open Spec
variable {K : Type} [Field K] [LinearOrder K] [IsStrictOrderedRing K] [FloorRing K]

theorem incr_eq_jump (w : ℕ → K) (k : ℕ) : incr w k = jump w k := by cases k <;> rfl

/-- The increments of a sum over minima. -/
theorem jump_min {m : ℕ} (w : ℕ → K) (z : Fin m → K) (k : ℕ) (hk : k < m) :
    jump (fun i => ∑ j : Fin m, w (min i j.val) * z j) k = jump w k * tailSum z k := by
  unfold tailSum
  cases k with
  | zero =>
    simp only [jump, Nat.zero_min, Nat.zero_le, if_true]
    rw [Finset.mul_sum]
  | succ k =>
    simp only [jump]
    rw [← Finset.sum_sub_distrib, Finset.mul_sum]
    refine Finset.sum_congr rfl fun j _ => ?_
    by_cases h : k + 1 ≤ j.val
    · rw [if_pos h, min_eq_left h, min_eq_left (by omega)]; ring
    · rw [if_neg h, min_eq_right (by omega), min_eq_right (by omega)]; ring

/-- The quadratic form of the inverse of the populated matrix is a sum of squares of increments. -/
theorem inverse_form {m : ℕ} (v n : ℕ → K) (hn : ∀ i < m, 0 < n i) (extra : List K) (A P : Matrix (Fin m) (Fin m) K)
    (hA : populateCovariance (List.ofFn fun i : Fin m => some (v i)) ((List.ofFn fun i : Fin m => n i) ++ extra) = .ok (rowsOf A))
    (hP : A * P = 1) (r : ℕ → K) :
    dotProduct (fun i : Fin m => r i) (P.mulVec fun i : Fin m => r i)
      = ∑ k ∈ Finset.range m, jump (fun i => n i * r i) k ^ 2 / jump (fun i => v i * n i ^ 2) k := by
  obtain ⟨A', h1, h2, -, h4⟩ := C40_covariance (fun i : Fin m => v i) (fun i : Fin m => n i) extra fun i => (hn i i.2).ne'
  rw [hA] at h1
  obtain rfl := rowsOf_injective (Except.ok.inj h1)
  set x := P.mulVec fun i : Fin m => r i with hx
  have hr : A.mulVec x = fun i : Fin m => r i := by
    rw [hx, Matrix.mulVec_mulVec, hP, Matrix.one_mulVec]
  have hform := cov_form (fun i : Fin m => v i) (fun i : Fin m => n i) (fun i => hn i i.2) A h2 h4 (fun i => v i * n i ^ 2) (fun i => rfl) x
  have hdot : dotProduct (fun i : Fin m => r i) x = ∑ i, ∑ j, x i * A i j * x j := by
    rw [← hr]
    simp only [dotProduct, Matrix.mulVec]
    refine Finset.sum_congr rfl fun i _ => ?_
    rw [Finset.sum_mul]
    exact Finset.sum_congr rfl fun j _ => by ring
  rw [hdot, hform]
  refine Finset.sum_congr rfl fun k hk => ?_
  have hkm := Finset.mem_range.1 hk
  set w : ℕ → K := fun i => v i * n i ^ 2 with hw
  have hnr : ∀ i < m, n i * r i = ∑ j : Fin m, w (min i j.val) * (x j / n j) := by
    intro i hi
    have := congrFun hr ⟨i, hi⟩
    simp only [Matrix.mulVec, dotProduct] at this
    rw [← this, Finset.mul_sum]
    refine Finset.sum_congr rfl fun j _ => ?_
    have hni := (hn i hi).ne'
    have hnj := (hn j j.2).ne'
    rcases le_total i j.val with h | h
    · rw [h4 ⟨i, hi⟩ j h, min_eq_left h, hw]
      dsimp only
      field_simp
    · rw [h2, h4 j ⟨i, hi⟩ h, min_eq_right h, hw]
      dsimp only
      field_simp
  have hj : jump (fun i => n i * r i) k = jump (fun i => ∑ j : Fin m, w (min i j.val) * (x j / n j)) k := by
    cases k with
    | zero => exact hnr 0 hkm
    | succ k => simp only [jump]; rw [hnr _ hkm, hnr k (by omega)]
  rw [hj, jump_min w _ k hkm, incr_eq_jump]
  by_cases h0 : jump w k = 0
  · rw [h0]; simp
  · field_simp

/-- Chains for two log-likelihoods that differ by a constant. -/
theorem runChain_shift {L : GlsLib K} {ll ll' : List K → Option K} {δ : K} {p : List K → Prop}
    (hll : ∀ θ, p θ → ll' θ = (ll θ).map (· + δ)) (hp : ∀ s w, p (L.propose s w)) (n : ℕ) :
    ∀ (s : ℕ) (ws : List (List K)), (∀ w ∈ ws, p w) → runChain L ll' n s ws = runChain L ll n s ws := by
  induction n with
  | zero => intro s ws _; rfl
  | succ n ih =>
    intro s ws hws
    have hm : ∀ u old new, p old → p new → metropolis ll' u old new = metropolis ll u old new := by
      intro u old new ho hn
      unfold metropolis
      rw [hll _ ho, hll _ hn]
      cases ll new with
      | none => rfl
      | some l1 =>
        cases ll old with
        | none => rfl
        | some l0 => simp only [Option.map_some]; rw [show l1 + δ - (l0 + δ) = l1 - l0 by ring]
    have hstep : ensembleStep L ll' s ws = ensembleStep L ll s ws := by
      unfold ensembleStep
      refine List.map_congr_left fun q hq => ?_
      exact hm _ _ _ (hws _ (List.fst_mem_of_mem_zipIdx hq)) (hp _ _)
    simp only [runChain]
    rw [hstep, ih]
    intro w hw
    unfold ensembleStep at hw
    obtain ⟨q, hq, rfl⟩ := List.mem_map.1 hw
    unfold metropolis
    split
    · exact hws _ (List.fst_mem_of_mem_zipIdx hq)
    · exact hp _ _
    · split_ifs
      · exact hp _ _
      · exact hws _ (List.fst_mem_of_mem_zipIdx hq)

/-- What a successful construction of the covariance matrix leaves behind. -/
theorem generateCovariance_parts {L : GlsLib K} {a : GlsArgs K} {b b1 : Boot K} {r m : ℕ} {A : Matrix (Fin m) (Fin m) K}
    (h : generateCovariance L a b r = (b1, .ok ⟨m, A⟩)) :
    ∃ v M, b1.modelV = some v ∧ v.length = m ∧ populateCovariance v (b.nO.drop r) = .ok M ∧ b1.npdCovariance = some M := by
  unfold generateCovariance at h
  cases hc : chooseVariances L a.model b r with
  | mk bc oc =>
  have hno : bc.nO = b.nO := by
    obtain ⟨⟨_, _, _, _, _, _, _, e⟩, -⟩ := chooseVariances_pre hc
    rw [e]
  rw [hc] at h
  cases oc with
  | error e => cases (Prod.mk.inj h).2
  | ok v =>
    have hmv : bc.modelV = some v := by
      unfold chooseVariances at hc
      by_cases hm : a.model = true
      · rw [if_pos hm] at hc
        unfold modelBranch at hc
        split at hc
        · cases (Prod.mk.inj hc).2
        · split at hc
          · cases (Prod.mk.inj hc).2
          · obtain rfl := Except.ok.inj (Prod.mk.inj hc).2
            rw [← (Prod.mk.inj hc).1]
      · rw [if_neg hm] at hc
        obtain rfl := Except.ok.inj (Prod.mk.inj hc).2
        rw [← (Prod.mk.inj hc).1]
    simp only at h
    split at h
    · cases (Prod.mk.inj h).2
    · rename_i M hM
      split at h
      · cases (Prod.mk.inj h).2
      · obtain ⟨e1, e2⟩ := Prod.mk.inj h
        have hm := (Sigma.mk.inj (Except.ok.inj e2)).1
        refine ⟨v, M, ?_, hm, ?_, ?_⟩
        · rw [← e1]; exact hmv
        · rw [← hno]; exact hM
        · rw [← e1]

/-- A successful fit: matrix, variances and chain. -/
theorem bootstrapGLS_parts {L : GlsLib K} {a : GlsArgs K} {b b' : Boot K} (h : bootstrapGLS L a b = (b', .ok ())) :
    ∃ (r m : ℕ) (cov : Matrix (Fin m) (Fin m) K) (chain : List (List K)) (v M : List _),
      diffRegime b.dt a.startDt = .ok r ∧ b'.modelV = some v ∧ v.length = m ∧ populateCovariance v (b.nO.drop r) = .ok M ∧
      b'.npdCovariance = some M ∧ b'.covariance = some (rowsOf cov) ∧
      sampleChain L a (b.dt.drop r) (b.n.drop r) m cov = .ok chain ∧ b'.flatchain = some chain := by
  unfold bootstrapGLS at h
  rw [show (markFit a b).dt = b.dt from rfl] at h
  cases hr : diffRegime b.dt a.startDt with
  | error e => rw [hr] at h; cases (Prod.mk.inj h).2
  | ok r =>
  rw [hr] at h
  simp only [fitFrom] at h
  cases hg : generateCovariance L a (markFit a b) r with
  | mk b2 o =>
  rw [hg] at h
  cases o with
  | error e => cases (Prod.mk.inj h).2
  | ok mc =>
  obtain ⟨m, cov⟩ := mc
  obtain ⟨h1, -⟩ := generateCovariance_pre hg
  obtain ⟨v, M, p1, p2, p3, p4⟩ := generateCovariance_parts hg
  simp only at h
  obtain ⟨sd, md, cm, po, mv, npd, cv, hb2⟩ := h1
  cases hs : sampleChain L a (b2.dt.drop r) (b2.n.drop r) m cov with
  | error e => rw [hs] at h; cases (Prod.mk.inj h).2
  | ok chain =>
  rw [hs] at h
  simp only at h
  obtain ⟨e1, ⟨gr, ic, e2⟩, e3⟩ := storeChain_fit h
  have hdt : b2.dt = b.dt := by rw [hb2]; rfl
  have hn : b2.n = b.n := by rw [hb2]; rfl
  rw [hdt, hn] at hs
  refine ⟨r, m, cov, chain, v, M, rfl, ?_, p2, p3, ?_, ?_, hs, e1⟩
  · rw [e2]; exact p1
  · rw [e2]; exact p4
  · rw [e2]
    show some (matrixRows cov) = some (rowsOf cov)
    unfold matrixRows rowsOf
    rw [List.ofFn_eq_map]
    congr 1
    apply List.map_congr_left
    intro i _
    rw [List.ofFn_eq_map]

/-- With the model variances: the fitted coefficient and the variances. -/
theorem bootstrapGLS_model {L : GlsLib K} {a : GlsArgs K} {b b' : Boot K} (h : bootstrapGLS L a b = (b', .ok ())) (hm : a.model = true) :
    ∃ (r : ℕ) (α : K) (v : List (Option K)), diffRegime b.dt a.startDt = .ok r ∧ b'.popt = some α ∧
      modelVariance (b.nO.drop r) (b.dt.drop r) α = .ok v ∧ b'.modelV = some v := by
  unfold bootstrapGLS at h
  rw [show (markFit a b).dt = b.dt from rfl] at h
  cases hr : diffRegime b.dt a.startDt with
  | error e => rw [hr] at h; cases (Prod.mk.inj h).2
  | ok r =>
  rw [hr] at h
  simp only [fitFrom] at h
  unfold generateCovariance chooseVariances at h
  rw [if_pos hm] at h
  unfold modelBranch at h
  cases hc : L.curveFit ((markFit a b).nO.drop r) ((markFit a b).dt.drop r) ((markFit a b).v.drop r) with
  | error e => rw [hc] at h; cases (Prod.mk.inj h).2
  | ok α =>
  rw [hc] at h
  simp only at h
  cases hv : modelVariance ((markFit a b).nO.drop r) ((markFit a b).dt.drop r) α with
  | error e => rw [hv] at h; cases (Prod.mk.inj h).2
  | ok v =>
  rw [hv] at h
  simp only at h
  refine ⟨r, α, v, rfl, ?_⟩
  split at h
  · cases (Prod.mk.inj h).2
  · rename_i b2 m cov hg
    split at hg
    · cases (Prod.mk.inj hg).2
    · split at hg
      · cases (Prod.mk.inj hg).2
      · have e2 := (Prod.mk.inj hg).1
        split at h
        · cases (Prod.mk.inj h).2
        · obtain ⟨-, ⟨gr, ic, e3⟩, -⟩ := storeChain_fit h
          refine ⟨?_, hv, ?_⟩
          · rw [e3, ← e2]
          · rw [e3, ← e2]

end Kinisi

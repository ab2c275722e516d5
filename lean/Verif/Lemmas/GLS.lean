import Verif.Model.GLS
import Verif.Lemmas.Covariance

/-!
# Lemmas for the generalised least-squares fit
-/

set_option linter.unusedSectionVars false
set_option linter.unusedVariables false

namespace Kinisi
open Spec
variable {K : Type} [Field K] [LinearOrder K] [IsStrictOrderedRing K] [FloorRing K]

/-! ## Start of the diffusive regime -/

theorem diffRegime_ok_iff {dt : List K} {s : K} {r : ℕ} :
    diffRegime dt s = .ok r ↔ ∃ h : r < dt.length, s ≤ dt[r] ∧ ∀ j (hj : j < r), dt[j] < s := by
  unfold diffRegime
  cases h : dt.findIdx? (fun x => decide (s ≤ x)) with
  | none =>
    simp only [reduceCtorEq, false_iff]
    rintro ⟨hr, h1, -⟩
    have := List.findIdx?_eq_none_iff.mp h dt[r] (List.getElem_mem hr)
    simp at this
    exact absurd h1 (not_le.mpr this)
  | some i =>
    rw [List.findIdx?_eq_some_iff_getElem] at h
    obtain ⟨hi, h1, h2⟩ := h
    constructor
    · intro hh
      obtain rfl := Except.ok.inj hh
      exact ⟨hi, by simpa using h1, fun j hj => by simpa using h2 j hj⟩
    · rintro ⟨hr, h3, h4⟩
      have h1' : s ≤ dt[i] := by simpa using h1
      rcases lt_trichotomy r i with hlt | heq | hgt
      · have := h2 r hlt
        simp at this
        exact absurd h3 (not_le.mpr this)
      · rw [heq]
      · exact absurd h1' (not_le.mpr (h4 i hgt))

theorem diffRegime_error_iff {dt : List K} {s : K} {e : PyErr} :
    diffRegime dt s = .error e ↔ e = .indexError ∧ ∀ x ∈ dt, x < s := by
  unfold diffRegime
  cases h : dt.findIdx? (fun x => decide (s ≤ x)) with
  | none =>
    rw [List.findIdx?_eq_none_iff] at h
    constructor
    · intro hh
      have := Except.error.inj hh
      exact ⟨this.symm, fun x hx => by simpa using h x hx⟩
    · rintro ⟨rfl, -⟩; rfl
  | some i =>
    simp only [reduceCtorEq, false_iff]
    rintro ⟨-, h1⟩
    rw [List.findIdx?_eq_some_iff_getElem] at h
    obtain ⟨hi, h2, -⟩ := h
    exact absurd (h1 _ (List.getElem_mem hi)) (not_lt.mpr (by simpa using h2))

/-! ## What a fit changes -/

/-- `b'` agrees with `b` except for what a fit sets. -/
def FitUpdate (b b' : Boot K) : Prop :=
  ∃ sd md cm po mv npd cov fc gr ic,
    b' = { b with startDt := sd, model := md, condMax := cm, popt := po, modelV := mv, npdCovariance := npd, covariance := cov,
                  flatchain := fc, gradient := gr, intercept := ic }

/-- `b'` agrees with `b` except for what a fit sets before the chain is stored. -/
def PreUpdate (b b' : Boot K) : Prop :=
  ∃ sd md cm po mv npd cov,
    b' = { b with startDt := sd, model := md, condMax := cm, popt := po, modelV := mv, npdCovariance := npd, covariance := cov }

theorem PreUpdate.fit {b b' : Boot K} (h : PreUpdate b b') : FitUpdate b b' := by
  obtain ⟨sd, md, cm, po, mv, npd, cov, rfl⟩ := h
  exact ⟨sd, md, cm, po, mv, npd, cov, _, _, _, rfl⟩

theorem PreUpdate.trans {a b c : Boot K} (h1 : PreUpdate a b) (h2 : PreUpdate b c) : PreUpdate a c := by
  obtain ⟨sd, md, cm, po, mv, npd, cov, rfl⟩ := h1
  obtain ⟨sd', md', cm', po', mv', npd', cov', rfl⟩ := h2
  exact ⟨sd', md', cm', po', mv', npd', cov', rfl⟩

theorem chooseVariances_pre {L : GlsLib K} {model : Bool} {b b1 : Boot K} {r : ℕ} {o : PyM (List (Option K))}
    (h : chooseVariances L model b r = (b1, o)) :
    PreUpdate b b1 ∧ b1.startDt = b.startDt ∧ b1.model = b.model ∧ b1.condMax = b.condMax := by
  unfold chooseVariances at h
  by_cases hm : model = true
  · rw [if_pos hm] at h
    unfold modelBranch at h
    split at h
    · obtain ⟨rfl, -⟩ := Prod.mk.inj h
      exact ⟨⟨_, _, _, _, _, _, _, rfl⟩, rfl, rfl, rfl⟩
    · split at h
      · obtain ⟨rfl, -⟩ := Prod.mk.inj h
        exact ⟨⟨_, _, _, _, _, _, _, rfl⟩, rfl, rfl, rfl⟩
      · obtain ⟨rfl, -⟩ := Prod.mk.inj h
        exact ⟨⟨_, _, _, _, _, _, _, rfl⟩, rfl, rfl, rfl⟩
  · rw [if_neg hm] at h
    obtain ⟨rfl, -⟩ := Prod.mk.inj h
    exact ⟨⟨_, _, _, _, _, _, _, rfl⟩, rfl, rfl, rfl⟩

theorem generateCovariance_pre {L : GlsLib K} {a : GlsArgs K} {b b1 : Boot K} {r : ℕ} {o : PyM ((m : ℕ) × Matrix (Fin m) (Fin m) K)}
    (h : generateCovariance L a b r = (b1, o)) :
    PreUpdate b b1 ∧ b1.startDt = b.startDt ∧ b1.model = b.model ∧ b1.condMax = b.condMax := by
  unfold generateCovariance at h
  cases hc : chooseVariances L a.model b r with
  | mk bc oc =>
  obtain ⟨h1, h2, h3, h4⟩ := chooseVariances_pre hc
  rw [hc] at h
  cases oc with
  | error e =>
    obtain ⟨rfl, -⟩ := Prod.mk.inj h
    exact ⟨h1, h2, h3, h4⟩
  | ok v =>
    simp only at h
    split at h
    · obtain ⟨rfl, -⟩ := Prod.mk.inj h
      exact ⟨h1, h2, h3, h4⟩
    · split at h
      · obtain ⟨rfl, -⟩ := Prod.mk.inj h
        exact ⟨h1.trans ⟨_, _, _, _, _, _, _, rfl⟩, h2, h3, h4⟩
      · obtain ⟨rfl, -⟩ := Prod.mk.inj h
        exact ⟨h1.trans ⟨_, _, _, _, _, _, _, rfl⟩, h2, h3, h4⟩

/-- The size of the matrix is the number of variances used. -/
theorem chooseVariances_length {L : GlsLib K} {model : Bool} {b b1 : Boot K} {r : ℕ} {v : List (Option K)}
    (h : chooseVariances L model b r = (b1, .ok v)) (hl : b.nO.length = b.dt.length) (hv : b.v.length = b.dt.length) :
    v.length = (b.dt.drop r).length := by
  unfold chooseVariances at h
  by_cases hm : model = true
  · rw [if_pos hm] at h
    unfold modelBranch at h
    split at h
    · cases (Prod.mk.inj h).2
    · split at h
      · cases (Prod.mk.inj h).2
      · rename_i v' hmv
        obtain rfl := Except.ok.inj (Prod.mk.inj h).2
        unfold modelVariance at hmv
        rw [if_pos (by rw [List.length_drop, List.length_drop, hl])] at hmv
        rw [← Except.ok.inj hmv]
        simp [hl]
  · rw [if_neg hm] at h
    obtain rfl := Except.ok.inj (Prod.mk.inj h).2
    rw [List.length_drop, List.length_drop, hv]

theorem generateCovariance_size {L : GlsLib K} {a : GlsArgs K} {b b1 : Boot K} {r m : ℕ} {A : Matrix (Fin m) (Fin m) K}
    (h : generateCovariance L a b r = (b1, .ok ⟨m, A⟩)) (hl : b.nO.length = b.dt.length) (hv : b.v.length = b.dt.length) :
    m = (b.dt.drop r).length := by
  unfold generateCovariance at h
  cases hc : chooseVariances L a.model b r with
  | mk bc oc =>
  rw [hc] at h
  cases oc with
  | error e => cases (Prod.mk.inj h).2
  | ok v =>
    simp only at h
    split at h
    · cases (Prod.mk.inj h).2
    · split at h
      · cases (Prod.mk.inj h).2
      · have := Except.ok.inj (Prod.mk.inj h).2
        have hm := (Sigma.mk.inj this).1
        rw [← hm]
        exact chooseVariances_length hc hl hv

theorem storeChain_fit {L : GlsLib K} {fi : Bool} {chain : List (List K)} {b b' : Boot K} {o : PyM Unit}
    (h : storeChain L fi chain b = (b', o)) :
    b'.flatchain = some chain ∧ (∃ gr ic, b' = { b with flatchain := some chain, gradient := gr, intercept := ic }) ∧
    (o = .ok () → ∃ g, chain.mapM (fun row => pyGet row 0) = .ok g ∧ b'.gradient = some g ∧
      if fi = true then ∃ c, chain.mapM (fun row => pyGet row 1) = .ok c ∧ b'.intercept = some c else b'.intercept = none) := by
  have col : ∀ k x, chainColumn L k chain = .ok x → chain.mapM (fun row => pyGet row k) = .ok x := by
    intro k x hx
    unfold chainColumn at hx
    cases hm : chain.mapM (fun row => pyGet row k) with
    | error e => rw [hm] at hx; cases hx
    | ok c =>
      rw [hm] at hx
      simp only [bind, Except.bind] at hx
      split at hx
      · cases hx
      · exact hx
  unfold storeChain at h
  simp only at h
  split at h
  · obtain ⟨rfl, rfl⟩ := Prod.mk.inj h
    exact ⟨rfl, ⟨_, _, rfl⟩, fun hh => by cases hh⟩
  · rename_i g hg
    split at h
    · rename_i hfi
      split at h
      · obtain ⟨rfl, rfl⟩ := Prod.mk.inj h
        exact ⟨rfl, ⟨_, _, rfl⟩, fun hh => by cases hh⟩
      · rename_i c hc
        obtain ⟨rfl, rfl⟩ := Prod.mk.inj h
        refine ⟨rfl, ⟨_, _, rfl⟩, fun _ => ⟨g, col 0 g hg, rfl, ?_⟩⟩
        rw [if_pos hfi]
        exact ⟨c, col 1 c hc, rfl⟩
    · rename_i hfi
      obtain ⟨rfl, rfl⟩ := Prod.mk.inj h
      refine ⟨rfl, ⟨_, _, rfl⟩, fun _ => ⟨g, col 0 g hg, rfl, ?_⟩⟩
      rw [if_neg hfi]

/-- A successful fit. -/
theorem bootstrapGLS_ok {L : GlsLib K} {a : GlsArgs K} {b b' : Boot K} (h : bootstrapGLS L a b = (b', .ok ())) :
    FitUpdate b b' ∧ b'.startDt = some a.startDt ∧ b'.model = some a.model ∧ b'.condMax = some a.condMax ∧
    ∃ (r m : ℕ) (cov : Matrix (Fin m) (Fin m) K) (chain : List (List K)) (g : List K) (b1 b2 : Boot K),
      diffRegime b.dt a.startDt = .ok r ∧ b1 = (markFit a b) ∧
      generateCovariance L a b1 r = (b2, .ok ⟨m, cov⟩) ∧ b'.covariance = some (matrixRows cov) ∧
      sampleChain L a (b.dt.drop r) (b.n.drop r) m cov = .ok chain ∧ b'.flatchain = some chain ∧
      chain.mapM (fun row => pyGet row 0) = .ok g ∧ b'.gradient = some g ∧
      if a.fitIntercept = true then ∃ c, chain.mapM (fun row => pyGet row 1) = .ok c ∧ b'.intercept = some c else b'.intercept = none := by
  unfold bootstrapGLS at h
  rw [show (markFit a b).dt = b.dt from rfl] at h
  cases hr : diffRegime b.dt a.startDt with
  | error e => rw [hr] at h; cases (Prod.mk.inj h).2
  | ok r =>
  rw [hr] at h
  simp only [fitFrom] at h
  cases hg : generateCovariance L a (markFit a b) r with
  | mk b2 o =>
  obtain ⟨h1, h2, h3, h4⟩ := generateCovariance_pre hg
  rw [hg] at h
  cases o with
  | error e => cases (Prod.mk.inj h).2
  | ok mc =>
  obtain ⟨m, cov⟩ := mc
  simp only at h
  obtain ⟨sd, md, cm, po, mv, npd, cv, hb2⟩ := h1
  cases hs : sampleChain L a (b2.dt.drop r) (b2.n.drop r) m cov with
  | error e => rw [hs] at h; cases (Prod.mk.inj h).2
  | ok chain =>
  rw [hs] at h
  simp only at h
  obtain ⟨e1, ⟨gr, ic, e2⟩, e3⟩ := storeChain_fit h
  obtain ⟨g, e4, e5, e6⟩ := e3 rfl
  have hdt : b2.dt = b.dt := by rw [hb2]; rfl
  have hn : b2.n = b.n := by rw [hb2]; rfl
  rw [hdt, hn] at hs
  refine ⟨?_, ?_, ?_, ?_, r, m, cov, chain, g, _, b2, rfl, rfl, hg, ?_, hs, e1, e4, e5, e6⟩
  · rw [e2, hb2]; exact ⟨_, _, _, _, _, _, _, _, _, _, rfl⟩
  · rw [e2]; exact h2
  · rw [e2]; exact h3
  · rw [e2]; exact h4
  · rw [e2]

/-- A failed fit. -/
theorem bootstrapGLS_error {L : GlsLib K} {a : GlsArgs K} {b b' : Boot K} {e : PyErr} (h : bootstrapGLS L a b = (b', .error e)) :
    FitUpdate b b' ∧
    (PreUpdate b b' ∨ ∃ r m, ∃ cov : Matrix (Fin m) (Fin m) K, ∃ chain, diffRegime b.dt a.startDt = .ok r ∧
      sampleChain L a (b.dt.drop r) (b.n.drop r) m cov = .ok chain ∧ b'.flatchain = some chain) := by
  unfold bootstrapGLS at h
  rw [show (markFit a b).dt = b.dt from rfl] at h
  cases hr : diffRegime b.dt a.startDt with
  | error e' =>
    rw [hr] at h
    obtain ⟨rfl, -⟩ := Prod.mk.inj h
    have : PreUpdate b (markFit a b) := ⟨_, _, _, _, _, _, _, rfl⟩
    exact ⟨this.fit, Or.inl this⟩
  | ok r =>
  rw [hr] at h
  simp only [fitFrom] at h
  cases hg : generateCovariance L a (markFit a b) r with
  | mk b2 o =>
  obtain ⟨h1, -, -, -⟩ := generateCovariance_pre hg
  have hp : PreUpdate b b2 :=
    PreUpdate.trans (b := (markFit a b)) ⟨_, _, _, _, _, _, _, rfl⟩ h1
  rw [hg] at h
  cases o with
  | error e' =>
    obtain ⟨rfl, -⟩ := Prod.mk.inj h
    exact ⟨hp.fit, Or.inl hp⟩
  | ok mc =>
  obtain ⟨m, cov⟩ := mc
  simp only at h
  have hp3 : PreUpdate b { b2 with covariance := some (matrixRows cov) } := hp.trans ⟨_, _, _, _, _, _, _, rfl⟩
  cases hs : sampleChain L a (b2.dt.drop r) (b2.n.drop r) m cov with
  | error e' =>
    rw [hs] at h
    obtain ⟨rfl, -⟩ := Prod.mk.inj h
    exact ⟨hp3.fit, Or.inl hp3⟩
  | ok chain =>
  rw [hs] at h
  simp only at h
  obtain ⟨e1, ⟨gr, ic, e2⟩, -⟩ := storeChain_fit h
  obtain ⟨sd, md, cm, po, mv, npd, cv, hb2⟩ := hp
  have hdt : b2.dt = b.dt := by rw [hb2]
  have hn : b2.n = b.n := by rw [hb2]
  rw [hdt, hn] at hs
  refine ⟨?_, Or.inr ⟨r, m, cov, chain, rfl, hs, e1⟩⟩
  rw [e2, hb2]; exact ⟨_, _, _, _, _, _, _, _, _, _, rfl⟩

/-! ## The chain -/

theorem sampleChain_ok {L : GlsLib K} {a : GlsArgs K} {t y : List K} {m : ℕ} {cov : Matrix (Fin m) (Fin m) K} {chain : List (List K)}
    (h : sampleChain L a t y m cov = .ok chain) :
    ∃ logdet inv slope ml, L.slogdet m cov = .ok logdet ∧ L.pinvh m cov = .ok inv ∧ t.length = m ∧ y.length = m ∧
      L.linregress t y = .ok slope ∧
      L.minimize (logLikelihood logdet inv (fun i => t.getD i 0) (fun i => y.getD i 0)) (startPoint a.fitIntercept slope) = .ok ml ∧
      getChain a.nBurn a.thin (runChain L (logLikelihood logdet inv (fun i => t.getD i 0) (fun i => y.getD i 0)) (a.nSamples + a.nBurn) 0
        (initialWalkers L a.nWalkers ml)) = .ok chain := by
  unfold sampleChain at h
  simp only [bind, Except.bind] at h
  cases h1 : L.slogdet m cov with
  | error e => rw [h1] at h; cases h
  | ok logdet =>
  rw [h1] at h
  simp only at h
  cases h2 : L.pinvh m cov with
  | error e => rw [h2] at h; cases h
  | ok inv =>
  rw [h2] at h
  simp only at h
  by_cases hl : t.length ≠ m ∨ y.length ≠ m
  · rw [if_pos hl] at h; cases h
  rw [if_neg hl] at h
  push Not at hl
  cases h3 : L.linregress t y with
  | error e => rw [h3] at h; cases h
  | ok slope =>
  rw [h3] at h
  simp only at h
  cases h4 : L.minimize (logLikelihood logdet inv (fun i => t.getD i 0) (fun i => y.getD i 0)) (startPoint a.fitIntercept slope) with
  | error e => rw [h4] at h; cases h
  | ok ml =>
  rw [h4] at h
  simp only at h
  split at h
  · cases h
  · exact ⟨logdet, inv, slope, ml, rfl, rfl, hl.1, hl.2, rfl, h4, h⟩

theorem ensembleStep_length (L : GlsLib K) (ll : List K → Option K) (s : ℕ) (ws : List (List K)) :
    (ensembleStep L ll s ws).length = ws.length := by simp [ensembleStep]

theorem runChain_length (L : GlsLib K) (ll : List K → Option K) (n s : ℕ) (ws : List (List K)) :
    (runChain L ll n s ws).length = n := by
  induction n generalizing s ws with
  | zero => rfl
  | succ n ih => simp [runChain, ih]

theorem runChain_walkers (L : GlsLib K) (ll : List K → Option K) (n s : ℕ) (ws : List (List K)) :
    ∀ e ∈ runChain L ll n s ws, e.length = ws.length := by
  induction n generalizing s ws with
  | zero => intro e he; cases he
  | succ n ih =>
    intro e he
    simp only [runChain] at he
    rcases List.mem_cons.mp he with rfl | he
    · exact ensembleStep_length _ _ _ _
    · rw [ih _ _ e he, ensembleStep_length]

/-- Invariants of the walkers: a property that holds for the initial walkers and for every point of finite log-likelihood holds for the chain. -/
theorem runChain_inv (L : GlsLib K) (ll : List K → Option K) (p : List K → Prop) (hp : ∀ θ, ll θ ≠ none → p θ) (n s : ℕ) (ws : List (List K))
    (hw : ∀ w ∈ ws, p w) : ∀ e ∈ runChain L ll n s ws, ∀ w ∈ e, p w := by
  have step : ∀ s ws, (∀ w ∈ ws, p w) → ∀ w ∈ ensembleStep L ll s ws, p w := by
    intro s ws hw w hm
    unfold ensembleStep at hm
    obtain ⟨q, hq, rfl⟩ := List.mem_map.mp hm
    have hq1 : q.1 ∈ ws := by
      obtain ⟨a, b⟩ := q
      have := List.mem_zipIdx hq
      simp only at this ⊢
      rw [this.2.2]
      exact List.getElem_mem _
    unfold metropolis
    split
    · exact hw _ hq1
    · rename_i h1 h2; exact hp _ (by rw [h1]; simp)
    · rename_i h1 h2
      split_ifs
      · exact hp _ (by rw [h1]; simp)
      · exact hw _ hq1
  induction n generalizing s ws with
  | zero => intro e he; cases he
  | succ n ih =>
    intro e he
    simp only [runChain] at he
    rcases List.mem_cons.mp he with rfl | he
    · exact step s ws hw
    · exact ih _ _ (step s ws hw) e he

theorem mapM_pyGet {chain : List (List K)} {k : ℕ} {g : List K} (h : chain.mapM (fun row => pyGet row k) = .ok g) :
    g.length = chain.length ∧ ∀ i (hi : i < chain.length) (hi' : i < g.length), chain[i][k]? = some g[i] := by
  induction chain generalizing g with
  | nil =>
    rw [List.mapM_nil] at h
    obtain rfl := Except.ok.inj h
    simp
  | cons row chain ih =>
    rw [List.mapM_cons] at h
    simp only [bind, Except.bind] at h
    cases h1 : pyGet row k with
    | error e => rw [h1] at h; cases h
    | ok x =>
    rw [h1] at h
    simp only at h
    cases h2 : chain.mapM (fun row => pyGet row k) with
    | error e => rw [h2] at h; cases h
    | ok xs =>
    rw [h2] at h
    obtain rfl := Except.ok.inj h
    obtain ⟨h3, h4⟩ := ih h2
    refine ⟨by simp [h3], ?_⟩
    intro i hi hi'
    cases i with
    | zero => simpa using pyGet_inv h1
    | succ i => simpa using h4 i (by simpa using hi) (by simpa using hi')

end Kinisi

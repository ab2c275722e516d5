import Verif.Props.GLS

/-!
# C46–C52: the posterior samples, the derived quantities and the state of the object
-/

set_option linter.unusedSectionVars false
set_option linter.unusedVariables false

namespace Kinisi
open Spec
variable {K : Type} [Field K] [LinearOrder K] [IsStrictOrderedRing K] [FloorRing K]

/-! ## Inversion of the three public methods -/

theorem scaled_ok {L : GlsLib K} {c : K} {g : Option (List K)} {d : List K} (h : scaled L c g = .ok d) :
    ∃ s, g = some s ∧ d = s.map fun x => x / c := by
  unfold scaled at h
  cases g with
  | none => cases h
  | some s =>
    simp only [samplesOf] at h
    split_ifs at h with hc
    split at h
    · cases h
    · exact ⟨s, rfl, (Except.ok.inj h).symm⟩

theorem diffusion_ok {L : GlsLib K} {a : GlsArgs K} {b b' : Boot K} (h : diffusion L a b = (b', .ok ())) :
    ∃ b1 g, bootstrapGLS L a b = (b1, .ok ()) ∧ b1.gradient = some g ∧
      b' = { b1 with diffusionCoefficient := some (g.map fun x => x / (20000 * (b1.dims : K))) } := by
  unfold diffusion at h
  cases hb : bootstrapGLS L a b with
  | mk b1 o =>
  rw [hb] at h
  cases o with
  | error e => cases (Prod.mk.inj h).2
  | ok u =>
    simp only at h
    cases hs : scaled L (20000 * (b1.dims : K)) b1.gradient with
    | error e => rw [hs] at h; cases (Prod.mk.inj h).2
    | ok d =>
      rw [hs] at h
      obtain ⟨s, e1, rfl⟩ := scaled_ok hs
      exact ⟨b1, s, rfl, e1, (Prod.mk.inj h).1.symm⟩

theorem jumpDiffusion_ok {L : GlsLib K} {a : GlsArgs K} {b b' : Boot K} (h : jumpDiffusion L a b = (b', .ok ())) :
    ∃ b1 g d0 rest, bootstrapGLS L a b = (b1, .ok ()) ∧ b1.gradient = some g ∧ b1.displacements = d0 :: rest ∧
      b' = { b1 with jumpDiffusionCoefficient := some (g.map fun x => x / (20000 * (b1.dims : K) * (d0.n0 : K))) } := by
  unfold jumpDiffusion at h
  cases hb : bootstrapGLS L a b with
  | mk b1 o =>
  rw [hb] at h
  cases o with
  | error e => cases (Prod.mk.inj h).2
  | ok u =>
    simp only at h
    cases hd : b1.displacements with
    | nil => rw [hd] at h; cases (Prod.mk.inj h).2
    | cons d0 rest =>
      rw [hd] at h
      simp only at h
      cases hs : scaled L (20000 * (b1.dims : K) * (d0.n0 : K)) b1.gradient with
      | error e => rw [hs] at h; cases (Prod.mk.inj h).2
      | ok d =>
        rw [hs] at h
        obtain ⟨s, e1, rfl⟩ := scaled_ok hs
        refine ⟨b1, s, d0, rest, rfl, e1, hd, ?_⟩
        rw [← (Prod.mk.inj h).1, hd]

theorem conductivity_ok {L : GlsLib K} {C : Consts K} {a : GlsArgs K} {T V : K} {b b' : Boot K}
    (h : conductivity L C a T V b = (b', .ok ())) :
    ∃ b1 g c, bootstrapGLS L a b = (b1, .ok ()) ∧ b1.gradient = some g ∧ conversion C T V = .ok c ∧
      b' = { b1 with sigma := some ((g.map fun x => x / (20000 * (b1.dims : K))).map fun x => x * c) } := by
  unfold conductivity at h
  cases hb : bootstrapGLS L a b with
  | mk b1 o =>
  rw [hb] at h
  cases o with
  | error e => cases (Prod.mk.inj h).2
  | ok u =>
    simp only at h
    cases hg : b1.gradient with
    | none => rw [hg] at h; cases (Prod.mk.inj h).2
    | some g =>
      rw [hg] at h
      simp only [samplesOf] at h
      cases hc : conversion C T V with
      | error e => rw [hc] at h; cases (Prod.mk.inj h).2
      | ok c =>
        rw [hc] at h
        simp only at h
        split at h
        · cases (Prod.mk.inj h).2
        split at h
        · cases (Prod.mk.inj h).2
        · refine ⟨b1, g, c, rfl, hg, rfl, ?_⟩
          rw [← (Prod.mk.inj h).1, hg]

/-- The flat chain of a successful fit is a selection of steps of one run. -/
theorem fit_chain {L : GlsLib K} {a : GlsArgs K} {b b' : Boot K} (h : bootstrapGLS L a b = (b', .ok ())) :
    ∃ (ll : List K → Option K) (ml x0 : List K) (g : List K),
      (∀ θ, ll θ = none ↔ θ.getD 0 0 < 0) ∧ 0 ≤ x0.getD 0 0 ∧ L.minimize ll x0 = .ok ml ∧ 0 < a.thin ∧ b'.gradient = some g ∧
      b'.flatchain = some (stride a.thin ((runChain L ll (a.nSamples + a.nBurn) 0 (initialWalkers L a.nWalkers ml)).drop (a.nBurn + a.thin - 1))).flatten ∧
      (stride a.thin ((runChain L ll (a.nSamples + a.nBurn) 0 (initialWalkers L a.nWalkers ml)).drop (a.nBurn + a.thin - 1))).flatten.mapM
        (fun row => pyGet row 0) = .ok g := by
  obtain ⟨-, -, -, -, r, m, cov, chain, g, b1, b2, h1, -, h3, h4, h5, h6, h7, h8, -⟩ := bootstrapGLS_ok h
  obtain ⟨logdet, inv, slope, ml, -, -, -, -, -, e1, e2⟩ := sampleChain_ok h5
  unfold getChain at e2
  split_ifs at e2 with c1 c2
  have e3 := Except.ok.inj e2
  refine ⟨_, ml, _, g, ?_, ?_, e1, Nat.pos_of_ne_zero c2, h8, ?_, ?_⟩
  · intro θ
    unfold logLikelihood
    split_ifs with hlt
    · exact ⟨fun _ => hlt, fun _ => rfl⟩
    · exact ⟨fun h => (by cases h), fun h => absurd h hlt⟩
  · unfold startPoint
    have : (0 : K) ≤ if slope < 0 then 1 / 10 ^ 20 else slope := by
      split_ifs with hs
      · positivity
      · exact not_lt.mp hs
    cases a.fitIntercept
    · rw [if_neg Bool.false_ne_true]; exact this
    · rw [if_pos rfl]; exact this
  · rw [e3]; exact h6
  · rw [e3]; exact h7

/-! ## C46 -/

/-- **C46.** If the sampling starts from non-negative gradients then every sample of the gradient is non-negative, whatever the proposals
and acceptances. -/
theorem C46_gradient_nonneg {L : GlsLib K} {a : GlsArgs K} {b b' : Boot K} (h : bootstrapGLS L a b = (b', .ok ()))
    (hstart : ∀ ll x0 ml, L.minimize ll x0 = .ok ml → 0 ≤ x0.getD 0 0 → (∀ θ, ll θ = none ↔ θ.getD 0 0 < 0) →
      ∀ w ∈ initialWalkers L a.nWalkers ml, 0 ≤ w.getD 0 0) :
    ∃ g, b'.gradient = some g ∧ ∀ x ∈ g, 0 ≤ x := by
  obtain ⟨ll, ml, x0, g, h1, h2, h3, h4, h5, -, h6⟩ := fit_chain h
  refine ⟨g, h5, ?_⟩
  obtain ⟨hl, hg⟩ := mapM_pyGet h6
  intro x hx
  obtain ⟨i, hi, rfl⟩ := List.getElem_of_mem hx
  have hrow := hg i (by omega) hi
  have hmem := List.getElem_mem (show i < (stride a.thin ((runChain L ll (a.nSamples + a.nBurn) 0
    (initialWalkers L a.nWalkers ml)).drop (a.nBurn + a.thin - 1))).flatten.length by omega)
  obtain ⟨e, he, hw⟩ := List.mem_flatten.mp hmem
  have hinv := runChain_inv L ll (fun θ => 0 ≤ θ.getD 0 0) (fun θ hθ => by
    by_contra hlt
    exact hθ ((h1 θ).mpr (not_le.mp hlt))) (a.nSamples + a.nBurn) 0 (initialWalkers L a.nWalkers ml) (hstart ll x0 ml h3 h2 h1) e
    (List.mem_of_mem_drop (stride_mem he)) _ hw
  rw [List.getD_eq_getElem?_getD, hrow] at hinv
  exact hinv

/-- **C46, from the library routines.** The hypothesis holds if the maximisation does not go from a finite to an infinite value and no
normal deviate is below -1000. -/
theorem C46_start_nonneg (L : GlsLib K) (nWalkers : ℕ) (hmin : ∀ f x0 x, L.minimize f x0 = .ok x → f x0 ≠ none → f x ≠ none)
    (hrand : ∀ w k, -1000 ≤ L.randn w k) (ll : List K → Option K) (x0 ml : List K) (h : L.minimize ll x0 = .ok ml) (hx : 0 ≤ x0.getD 0 0)
    (hll : ∀ θ, ll θ = none ↔ θ.getD 0 0 < 0) : ∀ w ∈ initialWalkers L nWalkers ml, 0 ≤ w.getD 0 0 := by
  have hml : 0 ≤ ml.getD 0 0 := by
    by_contra hlt
    exact hmin ll x0 ml h (fun hn => absurd ((hll x0).mp hn) (not_lt.mpr hx)) ((hll ml).mpr (not_le.mp hlt))
  intro w hw
  unfold initialWalkers at hw
  obtain ⟨k, -, rfl⟩ := List.mem_map.mp hw
  cases ml with
  | nil => simp
  | cons g rest =>
    simp only [List.zipIdx_cons, List.map_cons, List.getD_cons_zero] at hml ⊢
    have := hrand k 0
    have h2 : 0 ≤ 1 + 1 / 1000 * L.randn k 0 := by linarith
    nlinarith [mul_nonneg hml h2]

/-- **C46, derived quantities.** D, D_J and sigma are then non-negative too (positive temperature, volume and constants). -/
theorem C46_derived_nonneg {L : GlsLib K} {a : GlsArgs K} {b b' : Boot K}
    (hstart : ∀ ll x0 ml, L.minimize ll x0 = .ok ml → 0 ≤ x0.getD 0 0 → (∀ θ, ll θ = none ↔ θ.getD 0 0 < 0) →
      ∀ w ∈ initialWalkers L a.nWalkers ml, 0 ≤ w.getD 0 0) :
    (diffusion L a b = (b', .ok ()) → ∃ d, b'.diffusionCoefficient = some d ∧ ∀ x ∈ d, 0 ≤ x) ∧
    (jumpDiffusion L a b = (b', .ok ()) → ∃ d, b'.jumpDiffusionCoefficient = some d ∧ ∀ x ∈ d, 0 ≤ x) ∧
    (∀ (C : Consts K) (T V : K), 0 < C.nA → 0 < C.R → 0 < T → 0 < V → conductivity L C a T V b = (b', .ok ()) →
      ∃ d, b'.sigma = some d ∧ ∀ x ∈ d, 0 ≤ x) := by
  refine ⟨?_, ?_, ?_⟩
  · intro h
    obtain ⟨b1, g, h1, h2, rfl⟩ := diffusion_ok h
    obtain ⟨g', h3, h4⟩ := C46_gradient_nonneg h1 hstart
    obtain rfl := Option.some.inj (h2.symm.trans h3)
    refine ⟨_, rfl, ?_⟩
    intro x hx
    obtain ⟨y, hy, rfl⟩ := List.mem_map.mp hx
    exact div_nonneg (h4 y hy) (by positivity)
  · intro h
    obtain ⟨b1, g, d0, rest, h1, h2, -, rfl⟩ := jumpDiffusion_ok h
    obtain ⟨g', h3, h4⟩ := C46_gradient_nonneg h1 hstart
    obtain rfl := Option.some.inj (h2.symm.trans h3)
    refine ⟨_, rfl, ?_⟩
    intro x hx
    obtain ⟨y, hy, rfl⟩ := List.mem_map.mp hx
    exact div_nonneg (h4 y hy) (by positivity)
  · intro C T V hA hR hT hV h
    obtain ⟨b1, g, c, h1, h2, h3, rfl⟩ := conductivity_ok h
    obtain ⟨g', h4, h5⟩ := C46_gradient_nonneg h1 hstart
    obtain rfl := Option.some.inj (h2.symm.trans h4)
    refine ⟨_, rfl, ?_⟩
    have hc : 0 ≤ c := by
      unfold conversion at h3
      simp only at h3
      split_ifs at h3
      rw [← Except.ok.inj h3]
      positivity
    intro x hx
    obtain ⟨z, hz, rfl⟩ := List.mem_map.mp hx
    obtain ⟨y, hy, rfl⟩ := List.mem_map.mp hz
    exact mul_nonneg (div_nonneg (h5 y hy) (by positivity)) hc

/-! ## C47 -/

theorem flatten_uniform {α : Type} (l : List (List α)) (w : ℕ) (h : ∀ e ∈ l, e.length = w) :
    l.flatten.length = w * l.length ∧ ∀ i (hi : i < l.length) k (hk : k < w), l.flatten[i * w + k]? = l[i][k]? := by
  induction l with
  | nil => simp
  | cons e l ih =>
    obtain ⟨h1, h2⟩ := ih fun e' he' => h e' (List.mem_cons_of_mem _ he')
    have he := h e List.mem_cons_self
    constructor
    · rw [List.flatten_cons, List.length_append, he, h1, List.length_cons]; ring
    · intro i hi k hk
      rw [List.flatten_cons]
      cases i with
      | zero => rw [Nat.zero_mul, Nat.zero_add, List.getElem?_append_left (by omega)]; rfl
      | succ i =>
        rw [List.getElem?_append_right (by rw [he]; nlinarith), he]
        have : (i + 1) * w + k - w = i * w + k := by rw [Nat.add_mul]; omega
        rw [this, h2 i (by simpa using hi) k hk]
        rfl

theorem kept_count (n b t : ℕ) (ht : 0 < t) : (n + b - (b + t - 1) + t - 1) / t = n / t := by
  rcases Nat.lt_or_ge n t with h | h
  · rw [Nat.div_eq_of_lt h]
    apply Nat.div_eq_of_lt
    omega
  · congr 1; omega

/-- **C47.** After a fit there are `n_walkers * floor(n_samples / thin)` samples; sample number `i * n_walkers + w` is the position of walker `w`
after step `n_burn + thin * (i + 1)` of the run, so none is from the first `n_burn` steps. -/
theorem C47_sample_count {L : GlsLib K} {a : GlsArgs K} {b b' : Boot K} (h : bootstrapGLS L a b = (b', .ok ())) :
    0 < a.thin ∧ ∃ (chain : List (List K)) (g : List K) (ll : List K → Option K) (pos : List (List K)) (run : List (List (List K))),
      b'.flatchain = some chain ∧ b'.gradient = some g ∧
      chain.length = a.nWalkers * (a.nSamples / a.thin) ∧ g.length = a.nWalkers * (a.nSamples / a.thin) ∧
      pos.length = a.nWalkers ∧ run = runChain L ll (a.nSamples + a.nBurn) 0 pos ∧ run.length = a.nSamples + a.nBurn ∧
      ∀ i < a.nSamples / a.thin, ∀ w < a.nWalkers, ∃ (e : List (List K)) (row : List K),
        a.nBurn ≤ a.nBurn + a.thin * (i + 1) - 1 ∧
        run[a.nBurn + a.thin * (i + 1) - 1]? = some e ∧ e[w]? = some row ∧ chain[i * a.nWalkers + w]? = some row := by
  obtain ⟨ll, ml, x0, g, h1, h2, h3, ht, h5, h6, h7⟩ := fit_chain h
  refine ⟨ht, _, g, ll, initialWalkers L a.nWalkers ml, _, h6, h5, ?_, ?_, by simp [initialWalkers], rfl, runChain_length _ _ _ _ _, ?_⟩
  all_goals
    have hw : ∀ e ∈ stride a.thin ((runChain L ll (a.nSamples + a.nBurn) 0 (initialWalkers L a.nWalkers ml)).drop (a.nBurn + a.thin - 1)),
        e.length = a.nWalkers := by
      intro e he
      rw [runChain_walkers L ll _ 0 _ e (List.mem_of_mem_drop (stride_mem he))]
      simp [initialWalkers]
    have hlen : (stride a.thin ((runChain L ll (a.nSamples + a.nBurn) 0 (initialWalkers L a.nWalkers ml)).drop (a.nBurn + a.thin - 1))).length
        = a.nSamples / a.thin := by
      rw [stride_length _ ht, List.length_drop, runChain_length, kept_count _ _ _ ht]
    obtain ⟨f1, f2⟩ := flatten_uniform _ _ hw
  · rw [f1, hlen]
  · rw [(mapM_pyGet h7).1, f1, hlen]
  · intro i hi w hww
    have hi' : i < (stride a.thin ((runChain L ll (a.nSamples + a.nBurn) 0 (initialWalkers L a.nWalkers ml)).drop (a.nBurn + a.thin - 1))).length := by
      rw [hlen]; exact hi
    have e1 := stride_getElem? a.thin ht ((runChain L ll (a.nSamples + a.nBurn) 0 (initialWalkers L a.nWalkers ml)).drop (a.nBurn + a.thin - 1)) i
    rw [List.getElem?_eq_getElem hi', List.getElem?_drop] at e1
    have hidx : a.nBurn + a.thin - 1 + a.thin * i = a.nBurn + a.thin * (i + 1) - 1 := by rw [Nat.mul_add]; omega
    rw [hidx] at e1
    have hwl : w < ((stride a.thin ((runChain L ll (a.nSamples + a.nBurn) 0 (initialWalkers L a.nWalkers ml)).drop (a.nBurn + a.thin - 1)))[i]).length := by
      rw [hw _ (List.getElem_mem hi')]; exact hww
    refine ⟨_, _, ?_, e1.symm, List.getElem?_eq_getElem hwl, ?_⟩
    · have : 1 ≤ a.thin * (i + 1) := Nat.mul_pos ht (Nat.succ_pos i)
      omega
    · rw [f2 i hi' w hww, List.getElem?_eq_getElem hwl]

/-- **C47, D.** The diffusion coefficient has the same number of samples. -/
theorem C47_D_count {L : GlsLib K} {a : GlsArgs K} {b b' : Boot K} (h : diffusion L a b = (b', .ok ())) :
    ∃ d, b'.diffusionCoefficient = some d ∧ d.length = a.nWalkers * (a.nSamples / a.thin) := by
  obtain ⟨b1, g, h1, h2, rfl⟩ := diffusion_ok h
  obtain ⟨-, chain, g', ll, pos, run, -, h3, -, h4, -⟩ := C47_sample_count h1
  obtain rfl := Option.some.inj (h2.symm.trans h3)
  exact ⟨_, rfl, by rw [List.length_map]; exact h4⟩

/-! ## C48 -/

/-- Å²/ps in cm²/s. -/
def angstromSqPerPs : K := (1 / 10 ^ 8) ^ 2 / (1 / 10 ^ 12)
/-- Å³ in cm³. -/
def angstromCubed : K := (1 / 10 ^ 8) ^ 3

/-- **C48, D and D_J.** Sample by sample `D = g / (2 dims)` and `D_J = g / (2 dims N)`, converted from Å²/ps to cm²/s. -/
theorem C48_diffusion {L : GlsLib K} {a : GlsArgs K} {b b' : Boot K} :
    (diffusion L a b = (b', .ok ()) → ∃ g d, b'.gradient = some g ∧ b'.diffusionCoefficient = some d ∧
      d = g.map fun x => x / (2 * (b.dims : K)) * angstromSqPerPs) ∧
    (jumpDiffusion L a b = (b', .ok ()) → ∃ g d d0 rest, b'.gradient = some g ∧ b'.jumpDiffusionCoefficient = some d ∧
      b.displacements = d0 :: rest ∧ d = g.map fun x => x / (2 * (b.dims : K)) * angstromSqPerPs / (d0.n0 : K)) := by
  constructor
  · intro h
    obtain ⟨b1, g, h1, h2, rfl⟩ := diffusion_ok h
    obtain ⟨⟨sd, md, cm, po, mv, npd, cov, fc, gr, ic, e⟩, -⟩ := bootstrapGLS_ok h1
    have hd : b1.dims = b.dims := by rw [e]
    refine ⟨g, _, h2, rfl, ?_⟩
    apply List.map_congr_left
    intro x _
    rw [hd]
    unfold angstromSqPerPs
    by_cases h0 : (b.dims : K) = 0
    · rw [h0]; simp
    · field_simp; norm_num; try ring
  · intro h
    obtain ⟨b1, g, d0, rest, h1, h2, h3, rfl⟩ := jumpDiffusion_ok h
    obtain ⟨⟨sd, md, cm, po, mv, npd, cov, fc, gr, ic, e⟩, -⟩ := bootstrapGLS_ok h1
    have hd : b1.dims = b.dims := by rw [e]
    have hdd : b1.displacements = b.displacements := by rw [e]
    refine ⟨g, _, d0, rest, h2, rfl, hdd ▸ h3, ?_⟩
    apply List.map_congr_left
    intro x _
    rw [hd]
    unfold angstromSqPerPs
    by_cases h0 : (b.dims : K) = 0
    · rw [h0]; simp
    · by_cases h1 : (d0.n0 : K) = 0
      · rw [h1]; simp
      · field_simp; norm_num; try ring

/-- **C48, sigma.** `sigma = e² D / (V k_B T)` in mS/cm, with `D` in cm²/s, `V` in cm³, `k_B = R / N_A`. -/
theorem C48_conductivity {L : GlsLib K} {C : Consts K} {a : GlsArgs K} {T V : K} {b b' : Boot K} (hA : 0 < C.nA)
    (h : conductivity L C a T V b = (b', .ok ())) :
    ∃ g s, b'.gradient = some g ∧ b'.sigma = some s ∧
      s = g.map fun x => 1000 * (C.e ^ 2 * (x / (2 * (b.dims : K)) * angstromSqPerPs) / (V * angstromCubed * (C.R / C.nA) * T)) := by
  obtain ⟨b1, g, c, h1, h2, h3, rfl⟩ := conductivity_ok h
  obtain ⟨⟨sd, md, cm, po, mv, npd, cov, fc, gr, ic, e⟩, -⟩ := bootstrapGLS_ok h1
  have hd : b1.dims = b.dims := by rw [e]
  refine ⟨g, _, h2, rfl, ?_⟩
  rw [List.map_map]
  apply List.map_congr_left
  intro x _
  unfold conversion at h3
  simp only at h3
  split_ifs at h3 with c1 c2
  rw [← Except.ok.inj h3]
  simp only [Function.comp]
  rw [hd]
  have hV : V ≠ 0 := by rintro rfl; simp at c1
  have hR : C.R ≠ 0 := by intro h; rw [h] at c2; simp at c2
  have hT : T ≠ 0 := by rintro rfl; simp at c2
  have hA' := hA.ne'
  unfold angstromSqPerPs angstromCubed
  by_cases h0 : (b.dims : K) = 0
  · rw [h0]; simp
  · field_simp; norm_num; try ring

/-- **C48, scaling.** With temperature and volume multiplied by `p` and `q` the same gradient sample gives a conductivity divided by `p q`; zero temperature or
volume raises ZeroDivisionError. -/
theorem C48_scaling (C : Consts K) (T V p q c : K) (hp : p ≠ 0) (hq : q ≠ 0) (h : conversion C T V = .ok c) :
    conversion C (p * T) (q * V) = .ok (c / (p * q)) := by
  unfold conversion at h ⊢
  simp only at h ⊢
  split_ifs at h with c1 c2
  rw [if_neg, if_neg, ← Except.ok.inj h]
  · congr 1
    have hR : C.R ≠ 0 := by intro h; rw [h] at c2; simp at c2
    have hT : T ≠ 0 := by rintro rfl; simp at c2
    have hA : C.nA ≠ 0 := by intro h; rw [h] at c1; simp at c1
    have hV : V ≠ 0 := by rintro rfl; simp at c1
    field_simp
  · intro h0
    apply c2
    have : p * (C.R * T) = 0 := by rw [← h0]; ring
    exact (mul_eq_zero.mp this).resolve_left hp
  · intro h0
    apply c1
    have : q * (V * (1 / 10 ^ 24) * C.nA) = 0 := by rw [← h0]; ring
    exact (mul_eq_zero.mp this).resolve_left hq

/-- **C48, zero temperature or volume** (with non-zero constants): ZeroDivisionError. -/
theorem C48_zero (C : Consts K) (T V : K) (h : T = 0 ∨ V = 0) : conversion C T V = .error .zeroDivisionError := by
  unfold conversion
  simp only
  split_ifs with c1 c2
  · rfl
  · rfl
  · exfalso
    rcases h with rfl | rfl
    · simp at c2
    · simp at c1

theorem scaled_ne {L : GlsLib K} {c : K} {g : Option (List K)} {d : List K} (h : scaled L c g = .ok d) : c ≠ 0 := by
  unfold scaled at h
  split at h
  · cases h
  split_ifs at h with hc
  exact hc

/-- **C48, no division by zero.** Whenever a coefficient is reported, the numbers it was divided by are not zero: dimensions, mobile atoms, cell
volume and temperature. -/
theorem C48_denominators {L : GlsLib K} {C : Consts K} {a : GlsArgs K} {T V : K} {b b' : Boot K} :
    (diffusion L a b = (b', .ok ()) → b.dims ≠ 0) ∧
    (jumpDiffusion L a b = (b', .ok ()) → ∃ d0 rest, b.displacements = d0 :: rest ∧ b.dims ≠ 0 ∧ d0.n0 ≠ 0) ∧
    (conductivity L C a T V b = (b', .ok ()) → b.dims ≠ 0 ∧ V ≠ 0 ∧ T ≠ 0) := by
  refine ⟨fun h => ?_, fun h => ?_, fun h => ?_⟩
  · unfold diffusion at h
    split at h
    · cases (Prod.mk.inj h).2
    rename_i b1 _ hb
    obtain ⟨⟨sd, md, cm, po, mv, npd, cov, fc, gr, ic, e⟩, -⟩ := bootstrapGLS_ok hb
    have hd : b1.dims = b.dims := by rw [e]
    split at h
    · cases (Prod.mk.inj h).2
    rename_i d hs
    intro h0
    apply scaled_ne hs
    rw [hd, h0]
    simp
  · unfold jumpDiffusion at h
    split at h
    · cases (Prod.mk.inj h).2
    rename_i b1 _ hb
    obtain ⟨⟨sd, md, cm, po, mv, npd, cov, fc, gr, ic, e⟩, -⟩ := bootstrapGLS_ok hb
    have hd : b1.dims = b.dims := by rw [e]
    have hp : b1.displacements = b.displacements := by rw [e]
    split at h
    · cases (Prod.mk.inj h).2
    rename_i d0 rest hdis
    split at h
    · cases (Prod.mk.inj h).2
    rename_i d hs
    refine ⟨d0, rest, hp.symm.trans hdis, fun h0 => scaled_ne hs ?_, fun h0 => scaled_ne hs ?_⟩
    · rw [hd, h0]; simp
    · rw [h0]; simp
  · have hk := h
    unfold conductivity at hk
    split at hk
    · cases (Prod.mk.inj hk).2
    rename_i b1 _ hb
    obtain ⟨⟨sd, md, cm, po, mv, npd, cov, fc, gr, ic, e⟩, -⟩ := bootstrapGLS_ok hb
    have hd : b1.dims = b.dims := by rw [e]
    split at hk
    · cases (Prod.mk.inj hk).2
    split at hk
    · cases (Prod.mk.inj hk).2
    rename_i c hc
    split at hk
    · cases (Prod.mk.inj hk).2
    rename_i hz
    refine ⟨by rwa [← hd], ?_, ?_⟩
    · rintro rfl
      rw [C48_zero C T 0 (Or.inr rfl)] at hc
      cases hc
    · rintro rfl
      rw [C48_zero C 0 V (Or.inl rfl)] at hc
      cases hc

end Kinisi

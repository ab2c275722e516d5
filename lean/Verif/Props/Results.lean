import Verif.Props.History
import Verif.Props.Analyzer

/-!
# C85 – C87: what the results mean
-/

set_option linter.unusedSectionVars false
set_option linter.unusedVariables false

namespace Kinisi
open Spec
variable {K : Type} [Field K] [LinearOrder K] [IsStrictOrderedRing K] [FloorRing K] {G : Type}

/-! ## C85 -/

/-- The columns of the chain after a fit with intercept. -/
theorem fit_columns {c : FitCall K} {b b' : Boot K} (h : c.run b = (b', .ok ())) (hi : c.args.fitIntercept = true) :
    ∃ (chain : List (List K)) (g i : List K), b'.flatchain = some chain ∧ b'.gradient = some g ∧ b'.intercept = some i ∧
      b'.dt = b.dt ∧ b'.startDt = some c.args.startDt ∧ g.length = chain.length ∧ i.length = chain.length ∧
      ∀ (s : ℕ) (θ : List K), chain[s]? = some θ → ∃ x y, θ[0]? = some x ∧ θ[1]? = some y ∧ g[s]? = some x ∧ i[s]? = some y := by
  obtain ⟨b1, h1, f, d, -⟩ := FitCall.run_ok h
  obtain ⟨hup, hsd, -, -, r, m, cov, chain, g, b2, b3, -, -, -, -, -, h6, h7, h8, h9⟩ := bootstrapGLS_ok h1
  rw [if_pos hi] at h9
  obtain ⟨i, h10, h11⟩ := h9
  obtain ⟨s1, -, -, -, -, -, s2, s3, s4⟩ := f
  obtain ⟨l1, l2⟩ := mapM_pyGet h7
  obtain ⟨m1, m2⟩ := mapM_pyGet h10
  refine ⟨chain, g, i, s2 ▸ h6, s3 ▸ h8, s4 ▸ h11, ?_, s1 ▸ hsd, l1, m1, ?_⟩
  · rw [← d.1, ← hup.sameData.1]
  · intro s θ hs
    obtain ⟨hlt, rfl⟩ := List.getElem?_eq_some_iff.mp hs
    exact ⟨_, _, l2 s hlt (by omega), m2 s hlt (by omega), List.getElem?_eq_getElem _, List.getElem?_eq_getElem _⟩

/-- **C85, distribution.** After a successful fit with intercept, row `k` and column `s` of `distribution` is the line of posterior sample `s` (gradient and intercept
from the same row of the flat chain) at interval `k`. -/
theorem C85_distribution {c : FitCall K} {b b' : Boot K} (h : c.run b = (b', .ok ())) (hi : c.args.fitIntercept = true) :
    ∃ chain rows, b'.flatchain = some chain ∧ distribution b' = .ok rows ∧ rows.length = b.dt.length ∧
      ∀ (k : ℕ) (t : K), b.dt[k]? = some t → ∃ row, rows[k]? = some row ∧ row.length = chain.length ∧
        ∀ (s : ℕ) (θ : List K), chain[s]? = some θ → ∃ g i, θ[0]? = some g ∧ θ[1]? = some i ∧ row[s]? = some (g * t + i) := by
  obtain ⟨chain, g, i, h1, h2, h3, h4, -, h5, h6, h7⟩ := fit_columns h hi
  refine ⟨chain, b'.dt.map fun t => (g.zip i).map fun p => p.1 * t + p.2, h1, ?_, ?_, ?_⟩
  · unfold distribution
    simp only [h2, h3, samplesOf, bind, Except.bind]
    rw [if_neg (by rw [h5, h6]; simp)]
  · rw [List.length_map, h4]
  · intro k t ht
    refine ⟨(g.zip i).map fun p => p.1 * t + p.2, ?_, ?_, ?_⟩
    · rw [List.getElem?_map, h4, ht]; rfl
    · rw [List.length_map, List.length_zip, h5, h6, min_self]
    · intro s θ hs
      obtain ⟨x, y, e1, e2, e3, e4⟩ := h7 s θ hs
      refine ⟨x, y, e1, e2, ?_⟩
      rw [List.getElem?_map, List.getElem?_zip_eq_some (z := (x, y)) |>.mpr ⟨e3, e4⟩]
      rfl

/-- The `flatchain` of an analyzer from scaled gradients. -/
theorem analyzerFlatchain_of {X : Boot K → Option (List K)} {c : FitCall K} {b b' : Boot K} (h : c.run b = (b', .ok ()))
    (hi : c.args.fitIntercept = true) {f : K → K} {g : List K} (hg : b'.gradient = some g) (hX : X b' = some (g.map f)) :
    ∃ chain rows, b'.flatchain = some chain ∧ analyzerFlatchain X b' = .ok rows ∧ rows.length = chain.length ∧
      ∀ (s : ℕ) (θ : List K), chain[s]? = some θ → ∃ g i, θ[0]? = some g ∧ θ[1]? = some i ∧ rows[s]? = some [f g, i] := by
  obtain ⟨chain, g', i, h1, h2, h3, h4, -, h5, h6, h7⟩ := fit_columns h hi
  obtain rfl := Option.some.inj (hg.symm.trans h2)
  refine ⟨chain, ((g.map f).zip i).map fun p => [p.1, p.2], h1, ?_, ?_, ?_⟩
  rotate_left 2
  · intro s θ hs
    obtain ⟨x, y, e1, e2, e3, e4⟩ := h7 s θ hs
    refine ⟨x, y, e1, e2, ?_⟩
    show (((g.map f).zip i).map fun p => [p.1, p.2])[s]? = _
    rw [List.getElem?_map, (List.getElem?_zip_eq_some (z := (f x, y))).mpr ⟨by rw [List.getElem?_map, e3]; rfl, e4⟩]
    rfl
  · unfold analyzerFlatchain
    simp only [hX, h3, samplesOf, bind, Except.bind]
    rw [if_neg (by rw [List.length_map, h5, h6]; simp)]
  · rw [List.length_map, List.length_zip, List.length_map, h5, h6, min_self]

/-- **C85, flat chain of the analyzers.** Row `s` of `DiffusionAnalyzer.flatchain` consists of D and intercept of posterior sample `s`; likewise for D_J and
sigma. -/
theorem C85_flatchain {L : GlsLib K} {a : GlsArgs K} {b b' : Boot K} (hi : a.fitIntercept = true) :
    (diffusion L a b = (b', .ok ()) → ∃ chain rows, b'.flatchain = some chain ∧
      analyzerFlatchain Boot.diffusionCoefficient b' = .ok rows ∧ rows.length = chain.length ∧
      ∀ (s : ℕ) (θ : List K), chain[s]? = some θ → ∃ g i, θ[0]? = some g ∧ θ[1]? = some i ∧
        rows[s]? = some [g / (2 * (b.dims : K)) * angstromSqPerPs, i]) ∧
    (jumpDiffusion L a b = (b', .ok ()) → ∃ chain rows d0 rest, b'.flatchain = some chain ∧ b.displacements = d0 :: rest ∧
      analyzerFlatchain Boot.jumpDiffusionCoefficient b' = .ok rows ∧ rows.length = chain.length ∧
      ∀ (s : ℕ) (θ : List K), chain[s]? = some θ → ∃ g i, θ[0]? = some g ∧ θ[1]? = some i ∧
        rows[s]? = some [g / (2 * (b.dims : K)) * angstromSqPerPs / (d0.n0 : K), i]) ∧
    (∀ (C : Consts K) (T V : K), 0 < C.nA → conductivity L C a T V b = (b', .ok ()) → ∃ chain rows, b'.flatchain = some chain ∧
      analyzerFlatchain Boot.sigma b' = .ok rows ∧ rows.length = chain.length ∧
      ∀ (s : ℕ) (θ : List K), chain[s]? = some θ → ∃ g i, θ[0]? = some g ∧ θ[1]? = some i ∧
        rows[s]? = some [1000 * (C.e ^ 2 * (g / (2 * (b.dims : K)) * angstromSqPerPs) / (V * angstromCubed * (C.R / C.nA) * T)), i]) := by
  refine ⟨?_, ?_, ?_⟩
  · intro h
    obtain ⟨g, d, h1, h2, h3⟩ := C48_diffusion.1 h
    exact analyzerFlatchain_of (c := .diffusion L a) h hi h1 (h3 ▸ h2)
  · intro h
    obtain ⟨g, d, d0, rest, h1, h2, h3, h4⟩ := C48_diffusion.2 h
    obtain ⟨chain, rows, e⟩ := analyzerFlatchain_of (X := Boot.jumpDiffusionCoefficient) (c := .jump L a) h hi h1 (h4 ▸ h2)
    exact ⟨chain, rows, d0, rest, e.1, h3, e.2⟩
  · intro C T V hA h
    obtain ⟨g, d, h1, h2, h3⟩ := C48_conductivity hA h
    exact analyzerFlatchain_of (c := .conductivity L C a T V) h hi h1 (h3 ▸ h2)

theorem mapM_range_ok {α : Type} {f : ℕ → PyM α} {k : ℕ} {r : List α} (h : (List.range k).mapM f = .ok r) :
    r.length = k ∧ ∀ i < k, ∃ x, f i = .ok x ∧ r[i]? = some x := by
  obtain ⟨h1, h2⟩ := mapM_ok_inv h
  refine ⟨by rw [h1, List.length_range], fun i hi => ?_⟩
  exact h2 i i (List.getElem?_range hi)

/-- **C85, posterior predictive.** When the posterior predictive of a fit with intercept is returned, its block number `i` are the `n_predictive` vectors drawn from the normal distribution
whose mean is the line of one posterior sample (gradient and intercept of the same sample, number `draw i`) at the fitted intervals and whose covariance is that of the fit. -/
theorem C85_predictive {c : FitCall K} {b b' : Boot K} (hs : b.dt.Pairwise (· ≤ ·)) (h : c.run b = (b', .ok ())) (hi : c.args.fitIntercept = true)
    (rvs : List K → List (List (Option K)) → ℕ → ℕ → List (List K)) (draw : ℕ → ℕ → ℕ) (nPost : Option ℕ) (nPred : ℕ)
    (out : List (List K)) (ho : posteriorPredictive rvs draw b' nPost nPred = .ok out) :
    ∃ chain cov, ∃ θ : ℕ → List K, b'.flatchain = some chain ∧ b'.covariance = some cov ∧
      (∀ i < nPost.getD chain.length, chain[draw chain.length i]? = some (θ i) ∧ 2 ≤ (θ i).length) ∧
      out = ((List.range (nPost.getD chain.length)).map fun i =>
        rvs ((fittedPart c.args.startDt b.dt b.dt).map fun t => (θ i).getD 0 0 * t + (θ i).getD 1 0) cov nPred i).flatten := by
  obtain ⟨b1, h1, f, d, -⟩ := FitCall.run_ok h
  obtain ⟨-, -, -, -, r, m, cov, -, -, -, -, hr, -, -, hcov, -⟩ := bootstrapGLS_ok h1
  have hcov' : b'.covariance = some (matrixRows cov) := by rw [← f.2.2.2.2.2.1]; exact hcov
  obtain ⟨chain, g, ic, e1, e2, e3, e4, e5, e6, e7, e8⟩ := fit_columns h hi
  have hcount : posteriorCount nPost b' = .ok (nPost.getD chain.length) := by
    cases nPost with
    | none => simp only [posteriorCount, e2, samplesOf, bind, Except.bind, e6]; rfl
    | some k => rfl
  unfold posteriorPredictive at ho
  rw [hcount] at ho
  simp only [bind, Except.bind, startOf, e5, e4, hr, e2, samplesOf, randintCheck] at ho
  rw [e6] at ho
  split at ho
  · cases ho
  rename_i hne
  cases hm : (List.range (nPost.getD chain.length)).mapM fun i => predictiveRows rvs b' (b.dt.drop r) nPred i (draw chain.length i) with
  | error e => rw [hm] at ho; cases ho
  | ok rows =>
  rw [hm] at ho
  obtain rfl := Except.ok.inj ho
  obtain ⟨l1, l2⟩ := mapM_range_ok hm
  have key : ∀ i < nPost.getD chain.length, ∃ θ, chain[draw chain.length i]? = some θ ∧ 2 ≤ θ.length ∧
      rows[i]? = some (rvs ((fittedPart c.args.startDt b.dt b.dt).map fun t => θ.getD 0 0 * t + θ.getD 1 0) (matrixRows cov) nPred i) := by
    intro i hlt
    obtain ⟨x, hx, hxi⟩ := l2 i hlt
    unfold predictiveRows at hx
    simp only [e2, e3, samplesOf, bind, Except.bind, hcov'] at hx
    cases hg : pyGet g (draw chain.length i) with
    | error e => rw [hg] at hx; cases hx
    | ok gn =>
    rw [hg] at hx
    simp only at hx
    cases hc : pyGet ic (draw chain.length i) with
    | error e => rw [hc] at hx; cases hx
    | ok cn =>
    rw [hc] at hx
    simp only at hx
    split at hx
    · cases hx
    split at hx
    · cases hx
    obtain rfl := Except.ok.inj hx
    have hg' : g[draw chain.length i]? = some gn := pyGet_inv hg
    have hlt' : draw chain.length i < chain.length := lt_of_lt_of_eq (List.getElem?_eq_some_iff.mp hg').1 e6
    obtain ⟨x, y, q1, q2, q3, q4⟩ := e8 _ _ (List.getElem?_eq_getElem hlt')
    obtain rfl := Option.some.inj (hg'.symm.trans q3)
    obtain rfl := Option.some.inj ((pyGet_inv hc).symm.trans q4)
    refine ⟨_, List.getElem?_eq_getElem hlt', ?_, ?_⟩
    · have := (List.getElem?_eq_some_iff.mp q2).1; omega
    · rw [hxi, fittedPart_drop hs hr b.dt rfl]
      simp only [List.getD_eq_getElem?_getD, q1, q2, Option.getD_some]
  choose! θ hθ using key
  refine ⟨chain, _, θ, e1, hcov', fun i hlt => ⟨(hθ i hlt).1, (hθ i hlt).2.1⟩, ?_⟩
  congr 1
  apply List.ext_getElem?
  intro i
  by_cases hlt : i < nPost.getD chain.length
  · rw [(hθ i hlt).2.2, List.getElem?_map, List.getElem?_range hlt]; rfl
  · rw [List.getElem?_eq_none (by omega), List.getElem?_eq_none (by simpa using hlt)]

/-- The fit of `exFit` meets the hypotheses of `C85_distribution` and `C85_flatchain`; the second row of the distribution is `2 g + 1/2`. -/
example : (distribution (Kinisi.diffusion exLib (exArgs 2 true) exBoot).1).toOption =
    some [[7 / 2, 1 / 2, 11 / 2, 5 / 2], [13 / 2, 1 / 2, 21 / 2, 9 / 2], [19 / 2, 1 / 2, 31 / 2, 13 / 2]] ∧
    (analyzerFlatchain Boot.diffusionCoefficient (Kinisi.diffusion exLib (exArgs 2 true) exBoot).1).toOption =
      some [[1 / 20000, 1 / 2], [0, 1 / 2], [1 / 12000, 1 / 2], [1 / 30000, 1 / 2]] ∧
    (posteriorPredictive (fun μ _ k _ => List.replicate k μ) (fun _ i => i) (Kinisi.diffusion exLib (exArgs 2 true) exBoot).1 (some 2) 1).toOption =
      some [[13 / 2, 19 / 2], [1 / 2, 1 / 2]] := by
  refine ⟨?_, ?_, ?_⟩ <;> decide +kernel

/-! ## C86 -/

/-- The volume stored by the common tail of the constructors is that of the first frame used. -/
theorem buildParser_volume {E : Num K} {P : Params K} {S : Select K} {st : Frame K} {coords : List (List (V3 K))} {latt : List (M3 K)}
    {r : Parsed K} (h : buildParser E P S st coords latt = .ok r) : r.volume = some st.volume := by
  obtain ⟨_, _, _, _, r0, -, -, -, rfl⟩ := buildParser_inv h
  rfl

/-- The first frame used is `frames[0]` for a positive `sub_sample_traj`, the last frame for a negative one. -/
def FirstUsed {α : Type} (subTraj : ℤ) (fr : List α) (f : α) : Prop :=
  if 0 < subTraj then fr.head? = some f else fr.getLast? = some f

theorem stride_head {α : Type} {k : ℕ} (hk : 0 < k) (l : List α) : (stride k l).head? = l.head? := by
  rw [List.head?_eq_getElem?, List.head?_eq_getElem?, stride_getElem? k hk l 0, Nat.mul_zero]

theorem pyStride_first {α : Type} {k : ℤ} {l ds : List α} {f : α} {rest : List α} (h : pyStride k l = .ok ds) (hd : ds = f :: rest) :
    FirstUsed k l f := by
  unfold pyStride at h
  unfold FirstUsed
  split_ifs at h with h0 h1
  · rw [if_pos h1, ← stride_head (k := k.toNat) (by omega), Except.ok.inj h, hd]; rfl
  · rw [if_neg h1, ← List.head?_reverse, ← stride_head (k := k.natAbs) (by omega), Except.ok.inj h, hd]; rfl

theorem aseParser_volume {E : Num K} {P : Params K} {S : Select K} {k : ℤ} {fr : List (Frame K)} {r : Parsed K}
    (h : aseParser E P S k fr = .ok r) : ∃ f, FirstUsed k fr f ∧ r.volume = some f.volume := by
  unfold aseParser at h
  simp only [bind, Except.bind] at h
  cases hs : pyStride k fr with
  | error e => rw [hs] at h; cases h
  | ok ds =>
  rw [hs] at h
  cases ds with
  | nil => cases h
  | cons f rest => exact ⟨f, pyStride_first hs rfl, buildParser_volume h⟩

theorem pymatgenParser_volume {E : Num K} {P : Params K} {S : Select K} {k : ℤ} {fr : List (Frame K)} {r : Parsed K}
    (h : pymatgenParser E P S k fr = .ok r) : ∃ f, FirstUsed k fr f ∧ r.volume = some f.volume := by
  unfold pymatgenParser at h
  simp only [bind, Except.bind] at h
  cases hs : pyStride k fr with
  | error e => rw [hs] at h; cases h
  | ok ds =>
  rw [hs] at h
  cases ds with
  | nil => cases h
  | cons f rest =>
    simp only [structureCoordsLatt] at h
    split at h
    · cases h
    · rename_i r0 hb
      split at h
      · cases h
      · refine ⟨f, pyStride_first hs rfl, ?_⟩
        have := buildParser_volume hb
        rw [← Except.ok.inj h]
        exact this

theorem mdaParser_volume {E : Num K} {P : Params K} {S : Select K} {ka k : ℤ} {types : List String} {fr : List (MdaFrame K)} {r : Parsed K}
    (h : mdaParser E P S ka k types fr = .ok r) : ∃ f, FirstUsed k fr f ∧ r.volume = some f.volume := by
  unfold mdaParser at h
  simp only at h
  split_ifs at h
  simp only [bind, Except.bind] at h
  cases hs : pyStride k fr with
  | error e => rw [hs] at h; cases h
  | ok ds =>
  rw [hs] at h
  simp only at h
  cases hm : ds.mapM (mdaFrame types ka) with
  | error e => rw [hm] at h; cases h
  | ok fs =>
  rw [hm] at h
  cases fs with
  | nil => cases h
  | cons f rest =>
    obtain ⟨hl, hg⟩ := mapM_ok_inv hm
    cases ds with
    | nil => simp at hl
    | cons f0 ds =>
      obtain ⟨y, hy, hy0⟩ := hg 0 f0 rfl
      obtain rfl : f = y := Option.some.inj hy0
      refine ⟨f0, pyStride_first hs rfl, ?_⟩
      have hv : f.volume = f0.volume := by
        unfold mdaFrame at hy
        simp only [bind, Except.bind] at hy
        split at hy
        · cases hy
        split at hy
        · cases hy
        split at hy
        · cases hy
        rw [← Except.ok.inj hy]
      rw [← hv]
      exact buildParser_volume h

/-- The volume of an analyzer when every parsed trajectory has volume `V`. -/
theorem analyzerFrom_volume {α : Type} {parse : α → PyM (Parsed K)} {pj : Option (List α → PyM (Parsed K))} {dtype : Option String} {t : Traj α}
    {A : Base K} (h : analyzerFrom parse pj dtype t = .ok A) (V : K) (p : α → Prop) (ht : match t with | .one x => p x | .several xs => ∀ x ∈ xs, p x)
    (h1 : ∀ x r, p x → parse x = .ok r → r.volume = some V)
    (h2 : ∀ f, pj = some f → ∀ xs r, (∀ x ∈ xs, p x) → f xs = .ok r → r.volume = some V) : A.volume = some V := by
  unfold analyzerFrom at h
  cases dtype with
  | none =>
    cases t with
    | several xs => cases h
    | one x =>
      simp only [Traj.asOne, bind, Except.bind] at h
      split at h
      · cases h
      · rename_i r hr
        rw [← Except.ok.inj h]
        exact h1 x r ht hr
  | some s =>
    simp only at h
    split_ifs at h with c1 c2
    · cases t with
      | one x => cases h
      | several xs =>
        simp only [Traj.asList, bind, Except.bind] at h
        split at h
        · cases h
        · rename_i us hu
          cases us with
          | nil => cases h
          | cons u0 others =>
            simp only [poolIdentical, bind, Except.bind] at h
            split at h
            · cases h
            split at h
            · cases h
            rw [← Except.ok.inj h]
            obtain ⟨hl, hg⟩ := mapM_ok_inv hu
            cases xs with
            | nil => simp at hl
            | cons x xs =>
              obtain ⟨y, hy, hy0⟩ := hg 0 x rfl
              obtain rfl : u0 = y := Option.some.inj hy0
              exact h1 x u0 (ht x (by simp)) hy
    · cases hp : pj with
      | none => rw [hp] at h; cases h
      | some f =>
        rw [hp] at h
        cases t with
        | one x => cases h
        | several xs =>
          simp only [Traj.asList, bind, Except.bind] at h
          split at h
          · cases h
          · rename_i r hr
            rw [← Except.ok.inj h]
            exact h2 f hp xs r ht hr

theorem FirstUsed.mem {α : Type} {k : ℤ} {fr : List α} {f : α} (h : FirstUsed k fr f) : f ∈ fr := by
  unfold FirstUsed at h
  split_ifs at h
  · exact List.mem_of_mem_head? h
  · exact List.mem_of_mem_getLast? h

/-- All the frames of the trajectory, or of all the trajectories, have property `p`. -/
def Traj.AllFrames {α β : Type} (frames : α → List β) (p : β → Prop) : Traj α → Prop
  | .one x => ∀ f ∈ frames x, p f
  | .several xs => ∀ x ∈ xs, ∀ f ∈ frames x, p f

/-- **C86, what holds.** When all frames (of all trajectories) have the same volume, this is the volume of the analyzer, for every input format and every `dtype`.
(Missing for the full property: with different volumes one frame of one trajectory decides, see `C86_violated` and `C86_first_frame`.) -/
theorem C86_constant_volume_partial (E : Num K) (P : Params K) (S : Select K) (k : ℤ) (dtype : Option String) (V : K) (A : Base K) :
    (∀ t, t.AllFrames (fun x => x) (fun f => f.volume = V) → fromAse E P S k dtype t = .ok A → A.volume = some V) ∧
    (∀ t, t.AllFrames (fun x => x) (fun f => f.volume = V) → fromPymatgen E P S k dtype t = .ok A → A.volume = some V) ∧
    (∀ {X : Type} (structures : X → List (Frame K)) t, t.AllFrames structures (fun f => f.volume = V) →
      fromXdatcar structures E P S k dtype t = .ok A → A.volume = some V) ∧
    (∀ (read : String → PyM (List (Frame K))) t, (∀ name fr, read name = .ok fr → ∀ f ∈ fr, f.volume = V) →
      fromFile read E P S k dtype t = .ok A → A.volume = some V) ∧
    (∀ (ka : ℤ) t, t.AllFrames (fun x => x.2) (fun f => f.volume = V) → fromUniverse E P S ka k dtype t = .ok A → A.volume = some V) := by
  have flat : ∀ xs : List (List (Frame K)), (∀ x ∈ xs, ∀ f ∈ x, f.volume = V) → ∀ f ∈ flattenList xs, f.volume = V := by
    intro xs hx f hf
    unfold flattenList at hf
    obtain ⟨x, hxs, hfx⟩ := List.mem_flatMap.mp hf
    exact hx x hxs f (by simpa using hfx)
  refine ⟨?_, ?_, ?_, ?_, ?_⟩
  · intro t ht h
    refine analyzerFrom_volume h V (fun x => ∀ f ∈ x, f.volume = V) (by cases t <;> exact ht) ?_ ?_
    · intro x r hx hr
      obtain ⟨f, hf, hv⟩ := aseParser_volume hr
      rw [hv, hx f hf.mem]
    · intro f hf xs r hx hr
      obtain rfl := Option.some.inj hf
      obtain ⟨f, hf, hv⟩ := aseParser_volume hr
      rw [hv, flat xs hx f hf.mem]
  · intro t ht h
    refine analyzerFrom_volume h V (fun x => ∀ f ∈ x, f.volume = V) (by cases t <;> exact ht) ?_ ?_
    · intro x r hx hr
      obtain ⟨f, hf, hv⟩ := pymatgenParser_volume hr
      rw [hv, hx f hf.mem]
    · intro f hf xs r hx hr
      obtain rfl := Option.some.inj hf
      obtain ⟨f, hf, hv⟩ := pymatgenParser_volume hr
      rw [hv, flat xs hx f hf.mem]
  · intro X structures t ht h
    refine analyzerFrom_volume h V (fun x => ∀ f ∈ structures x, f.volume = V) (by cases t <;> exact ht) ?_ ?_
    · intro x r hx hr
      obtain ⟨f, hf, hv⟩ := pymatgenParser_volume hr
      rw [hv, hx f hf.mem]
    · intro f hf xs r hx hr
      obtain rfl := Option.some.inj hf
      obtain ⟨f, hf, hv⟩ := pymatgenParser_volume hr
      rw [hv, flat (xs.map structures) (by intro x hxm; obtain ⟨z, hz, rfl⟩ := List.mem_map.mp hxm; exact hx z hz) f hf.mem]
  · intro read t hread h
    refine analyzerFrom_volume h V (fun _ => True) (by cases t <;> simp) ?_ ?_
    · intro x r _ hr
      simp only [bind, Except.bind] at hr
      split at hr
      · cases hr
      · rename_i fr hfr
        obtain ⟨f, hf, hv⟩ := pymatgenParser_volume hr
        rw [hv, hread x fr hfr f hf.mem]
    · intro f hf xs r hx hr
      obtain rfl := Option.some.inj hf
      simp only [bind, Except.bind] at hr
      split at hr
      · cases hr
      · rename_i frs hfr
        obtain ⟨f, hf, hv⟩ := pymatgenParser_volume hr
        rw [hv, flat frs ?_ f hf.mem]
        intro x hxm
        obtain ⟨hl, hg⟩ := mapM_ok_inv hfr
        obtain ⟨i, hi, rfl⟩ := List.getElem_of_mem hxm
        obtain ⟨y, hy, hy2⟩ := hg i xs[i] (List.getElem?_eq_getElem (by omega))
        rw [List.getElem?_eq_getElem hi] at hy2
        obtain rfl := Option.some.inj hy2
        exact hread _ _ hy
  · intro ka t ht h
    refine analyzerFrom_volume h V (fun x => ∀ f ∈ x.2, f.volume = V) (by cases t <;> exact ht) ?_ ?_
    · intro x r hx hr
      obtain ⟨f, hf, hv⟩ := mdaParser_volume hr
      rw [hv, hx f hf.mem]
    · intro f hf; cases hf

/-- **C86, one trajectory.** The volume of an analyzer of one trajectory is that of the first frame used, whatever the volumes of the other frames. -/
theorem C86_first_frame (E : Num K) (P : Params K) (S : Select K) (k : ℤ) (A : Base K) :
    (∀ fr, fromAse E P S k none (.one fr) = .ok A → ∃ f, FirstUsed k fr f ∧ A.volume = some f.volume) ∧
    (∀ fr, fromPymatgen E P S k none (.one fr) = .ok A → ∃ f, FirstUsed k fr f ∧ A.volume = some f.volume) ∧
    (∀ ka u, fromUniverse E P S ka k none (.one u) = .ok A → ∃ f, FirstUsed k u.2 f ∧ A.volume = some f.volume) := by
  refine ⟨?_, ?_, ?_⟩
  · intro fr h
    simp only [fromAse, analyzerFrom, Traj.asOne, bind, Except.bind] at h
    split at h
    · cases h
    · rename_i r hr
      rw [← Except.ok.inj h]
      exact aseParser_volume hr
  · intro fr h
    simp only [fromPymatgen, analyzerFrom, Traj.asOne, bind, Except.bind] at h
    split at h
    · cases h
    · rename_i r hr
      rw [← Except.ok.inj h]
      exact pymatgenParser_volume hr
  · intro ka u h
    simp only [fromUniverse, analyzerFrom, Traj.asOne, bind, Except.bind] at h
    split at h
    · cases h
    · rename_i r hr
      rw [← Except.ok.inj h]
      exact mdaParser_volume hr

/-- The example trajectory in a box of twice the length. -/
def exBigTraj : List (Frame ℚ) := exTraj.map fun f => { f with latt := fun i j => 2 * f.latt i j, volume := 8000 }

/-- **C86 is violated.** A trajectory in a cell of 1000 Å³ and one in a cell of 8000 Å³ are pooled without complaint; the volume used for the conductivity is that of whichever
comes first in the list. -/
theorem C86_violated :
    (fromAse exNum exShort exSelect 1 (some "identical") (.several [exTraj, exBigTraj])).toOption.map (fun A => A.volume) = some (some 1000) ∧
    (fromAse exNum exShort exSelect 1 (some "identical") (.several [exBigTraj, exTraj])).toOption.map (fun A => A.volume) = some (some 8000) := by
  refine ⟨?_, ?_⟩ <;> decide +kernel

example : Traj.AllFrames (fun x => x) (fun f => f.volume = 1000) (Traj.several [exTraj, exTraj.reverse]) ∧
    (fromAse exNum exShort exSelect 1 (some "identical") (.several [exTraj, exTraj.reverse])).toOption.isSome = true := by
  constructor
  · intro x hx f hf
    have : ∀ f ∈ exTraj, f.volume = 1000 := by
      intro f hf
      simp only [exTraj, List.mem_map] at hf
      obtain ⟨j, -, rfl⟩ := hf
      rfl
    simp only [List.mem_cons, List.mem_nil_iff, or_false] at hx
    rcases hx with rfl | rfl
    · exact this f hf
    · exact this f (List.mem_reverse.mp hf)
  · decide +kernel

end Kinisi

import Verif.Lemmas.Unbiased
import Verif.Props.Bootstrap
import Verif.Props.RandomWalk

/-!
# Are the reported variances right on average? C107, C108
-/

set_option linter.unusedSectionVars false
set_option linter.unusedVariables false

namespace Kinisi
open MeasureTheory Spec

variable {Ω : Type} [MeasurableSpace Ω] {G : Type}

theorem msd_meanOn (A : Finset (Fin 3)) (a : Arr3 ℝ) : msd A a = meanOn (pairs a) (sqLen A a) := by
  unfold msd meanOn pairs sqLen
  rw [Finset.sum_product, Finset.card_product, Finset.card_range, Finset.card_range, Nat.cast_mul]

theorem mstd_meanOn (A : Finset (Fin 3)) (a : Arr3 ℝ) : mstd A a = meanOn (Finset.range a.n1) (sqSum A (fun _ => 1) a) := by
  unfold mstd meanOn sqSum
  simp only [one_mul, Finset.card_range]

theorem mscd_meanOn (A : Finset (Fin 3)) (q : ℕ → ℝ) (a : Arr3 ℝ) : mscd A q a = meanOn (Finset.range a.n1) (sqSum A q a) := by
  unfold mscd meanOn sqSum
  simp only [Finset.card_range]

/-! ## C107: the analytic variance -/

/-- **C107, MSD.** Let the squared displacements of interval `i` (`N` atoms, `T` observations) be random with common mean `m` and variance
`v`, pairwise uncorrelated.  Then the reported MSD is `m` on average, with variance `v / (N T)`; the reported variance is `v / n_o[i]` on
average.  So the report is right on average exactly if `n_o[i]` is the number of squared displacements. -/
theorem C107_msd (μ : Measure Ω) [IsProbabilityMeasure μ] (sq : ℝ → ℝ) (hsq : IsSqrt sq) (o : Oracle ℝ G) (opt : BootOpts ℝ)
    (hblock : opt.block = false) (g : G) (g' : Ω → G) (deltaT : List ℝ) (disp ds : Ω → List (Arr3 ℝ)) (nO : List ℝ) (hno : ∀ x ∈ nO, 0 < x)
    (sub : ℤ) (d : String) (b : Ω → Boot ℝ) (h : ∀ ω, msdBootstrap sq o opt g deltaT (disp ω) nO sub d = .ok (b ω, g' ω))
    (hds : ∀ ω, pyStride sub (disp ω) = .ok (ds ω)) (i N T : ℕ) (h2 : 2 ≤ N * T) (a : Ω → Arr3 ℝ)
    (ha : ∀ ω, (ds ω)[i]? = some (a ω) ∧ (a ω).n0 = N ∧ (a ω).n1 = T) (no : ℝ) (hi : nO[i]? = some no) (m v : ℝ)
    (hX : SameMoments μ (Finset.range N ×ˢ Finset.range T) (fun p ω => sqLen (axesOf d) (a ω) p) m v) :
    ∃ n w : Ω → ℝ, (∀ ω, (b ω).n[i]? = some (n ω) ∧ (b ω).v[i]? = some (some (w ω))) ∧
      ∫ ω, n ω ∂μ = m ∧ ∫ ω, (n ω - m) ^ 2 ∂μ = v / (N * T : ℕ) ∧ ∫ ω, w ω ∂μ = v / no ∧
      (v ≠ 0 → (∫ ω, w ω ∂μ = ∫ ω, (n ω - m) ^ 2 ∂μ ↔ no = (N * T : ℕ))) := by
  have hp : ∀ ω, pairs (a ω) = Finset.range N ×ˢ Finset.range T := fun ω => by
    unfold pairs; rw [(ha ω).2.1, (ha ω).2.2]
  have hcard : (Finset.range N ×ˢ Finset.range T).card = N * T := by
    rw [Finset.card_product, Finset.card_range, Finset.card_range]
  have hpos : 0 < no := hno no (List.mem_of_getElem? hi)
  have h0 : (Finset.range N ×ˢ Finset.range T).card ≠ 0 := by omega
  have e1 := hX.mean_meanOn h0
  have e2 := hX.var_meanOn h0
  have e3 := hX.mean_varOn (by omega)
  rw [hcard] at e2
  have e4 : ∫ ω, varOn (Finset.range N ×ˢ Finset.range T) (fun p => sqLen (axesOf d) (a ω) p) / no ∂μ = v / no := by
    rw [integral_div, e3]
  refine ⟨fun ω => meanOn (Finset.range N ×ˢ Finset.range T) fun p => sqLen (axesOf d) (a ω) p,
    fun ω => varOn (Finset.range N ×ˢ Finset.range T) (fun p => sqLen (axesOf d) (a ω) p) / no, fun ω => ?_, e1, e2, e4, fun hv => ?_⟩
  · obtain ⟨ds₁, dts, k1, -, -, k2, k3⟩ := C28_msd sq o opt hblock g (g' ω) deltaT (disp ω) nO sub d (b ω) (h ω)
    obtain ⟨-, -, -, -, -, ds₂, k4, k5⟩ := C32_variance sq hsq o opt hblock g (g' ω) deltaT (disp ω) nO hno sub d (b ω) (h ω)
    rw [hds ω] at k1 k4
    obtain rfl := Except.ok.inj k1
    obtain rfl := Except.ok.inj k4
    have hlt : i < (b ω).n.length := by
      by_contra hc
      have := k3 i (not_lt.mp hc) (a ω) (ha ω).1
      rw [(ha ω).2.1, (ha ω).2.2] at this
      omega
    obtain ⟨a₁, f1, -, f2, -⟩ := k2 i hlt
    obtain ⟨a₂, no', s, f3, f4, f5, -⟩ := k5 i hlt
    rw [(ha ω).1] at f1 f3
    obtain rfl := Option.some.inj f1
    obtain rfl := Option.some.inj f3
    rw [hi] at f4
    obtain rfl := Option.some.inj f4
    rw [f2, f5, msd_meanOn, hp ω]
    exact ⟨rfl, rfl⟩
  · rw [e2, e4]
    have hNT : ((N * T : ℕ) : ℝ) ≠ 0 := by rw [← hcard]; exact_mod_cast h0
    constructor
    · intro e
      rw [div_eq_div_iff hpos.ne' hNT] at e
      exact (mul_left_cancel₀ hv e).symm
    · intro e; rw [e]

/-- **C107, MSTD.** The same for the total displacement: one value per observation, and the divisor is `n_o[i]` over the number of atoms. -/
theorem C107_mstd (μ : Measure Ω) [IsProbabilityMeasure μ] (sq : ℝ → ℝ) (hsq : IsSqrt sq) (o : Oracle ℝ G) (opt : BootOpts ℝ)
    (hblock : opt.block = false) (g : G) (g' : Ω → G) (deltaT : List ℝ) (disp ds : Ω → List (Arr3 ℝ)) (nO : List ℝ) (hno : ∀ x ∈ nO, 0 < x)
    (sub : ℤ) (d : String) (b : Ω → Boot ℝ) (h : ∀ ω, mstdBootstrap sq o opt g deltaT (disp ω) nO sub d = .ok (b ω, g' ω))
    (hds : ∀ ω, pyStride sub (disp ω) = .ok (ds ω)) (N T : ℕ) (h2 : 2 ≤ T) (hN : 0 < N) (hall : ∀ ω, ∀ a ∈ disp ω, a.n0 = N ∧ 2 ≤ a.n1) (i : ℕ)
    (hhalf : ∀ ω, i < (ds ω).length / 2) (a : Ω → Arr3 ℝ)
    (ha : ∀ ω, (ds ω)[i]? = some (a ω) ∧ (a ω).n1 = T) (no : ℝ) (hi : nO[i]? = some no) (m v : ℝ)
    (hX : SameMoments μ (Finset.range T) (fun k ω => sqSum (axesOf d) (fun _ => 1) (a ω) k) m v) :
    ∃ n w : Ω → ℝ, (∀ ω, (b ω).n[i]? = some (n ω) ∧ (b ω).v[i]? = some (some (w ω))) ∧
      ∫ ω, n ω ∂μ = m ∧ ∫ ω, (n ω - m) ^ 2 ∂μ = v / T ∧ ∫ ω, w ω ∂μ = v / (no / N) ∧
      (v ≠ 0 → (∫ ω, w ω ∂μ = ∫ ω, (n ω - m) ^ 2 ∂μ ↔ no = (N * T : ℕ))) := by
  have hpos : 0 < no := hno no (List.mem_of_getElem? hi)
  have hNr : (0 : ℝ) < N := by exact_mod_cast hN
  have h0 : (Finset.range T).card ≠ 0 := by rw [Finset.card_range]; omega
  have e1 := hX.mean_meanOn h0
  have e2 := hX.var_meanOn h0
  have e3 := hX.mean_varOn (by rw [Finset.card_range]; omega)
  rw [Finset.card_range] at e2
  have e4 : ∫ ω, varOn (Finset.range T) (fun k => sqSum (axesOf d) (fun _ => 1) (a ω) k) / (no / N) ∂μ = v / (no / N) := by
    rw [integral_div, e3]
  refine ⟨fun ω => meanOn (Finset.range T) fun k => sqSum (axesOf d) (fun _ => 1) (a ω) k,
    fun ω => varOn (Finset.range T) (fun k => sqSum (axesOf d) (fun _ => 1) (a ω) k) / (no / N), fun ω => ?_, e1, e2, e4, fun hv => ?_⟩
  · obtain ⟨ds₁, dts, k1, -, k2, -⟩ := C29_mstd sq o opt hblock g (g' ω) deltaT (disp ω) nO sub d (b ω)
      (fun l hl x hx => (hall ω x (pyStride_mem hl (List.mem_of_mem_take hx))).2) (h ω)
    obtain ⟨-, -, -, -, -, ds₂, k4, k5⟩ := C32_variance_mstd sq hsq o opt hblock g (g' ω) deltaT (disp ω) nO hno
      (fun x hx => by rw [(hall ω x hx).1]; exact hN) sub d (b ω) (h ω)
    have hmem := hall ω (a ω) (pyStride_mem (hds ω) (List.mem_of_getElem? (ha ω).1))
    rw [hds ω] at k1 k4
    obtain rfl := Except.ok.inj k1
    obtain rfl := Except.ok.inj k4
    have f2 : (b ω).n[i]? = some (mstd (axesOf d) (a ω)) := by
      rw [k2, List.getElem?_map, List.getElem?_take_of_lt (hhalf ω), (ha ω).1]; rfl
    obtain ⟨a₂, no', s, f3, f4, f5, -⟩ := k5 i (List.getElem?_eq_some_iff.mp f2).1
    rw [(ha ω).1] at f3
    obtain rfl := Option.some.inj f3
    rw [hi] at f4
    obtain rfl := Option.some.inj f4
    rw [f2, f5, mstd_meanOn, (ha ω).2, hmem.1]
    exact ⟨rfl, rfl⟩
  · rw [e2, e4]
    have hT : (0 : ℝ) < T := by exact_mod_cast (by omega : 0 < T)
    rw [Nat.cast_mul]
    constructor
    · intro e
      rw [div_eq_div_iff (div_pos hpos hNr).ne' hT.ne'] at e
      have := mul_left_cancel₀ hv e
      rw [this]; field_simp
    · intro e; rw [e]; field_simp

/-- **C107, MSCD.** The same for the charge displacement along the three axes, for one charge or one charge per ion. -/
theorem C107_mscd (μ : Measure Ω) [IsProbabilityMeasure μ] (sq : ℝ → ℝ) (hsq : IsSqrt sq) (o : Oracle ℝ G) (opt : BootOpts ℝ)
    (hblock : opt.block = false) (g : G) (g' : Ω → G) (deltaT : List ℝ) (disp ds : Ω → List (Arr3 ℝ)) (charge : Charge ℝ) (nO : List ℝ) (hno : ∀ x ∈ nO, 0 < x)
    (sub : ℤ) (d : String) (b : Ω → Boot ℝ) (h : ∀ ω, mscdBootstrap sq o opt g deltaT (disp ω) charge nO sub d = .ok (b ω, g' ω))
    (hds : ∀ ω, pyStride sub (disp ω) = .ok (ds ω)) (N T : ℕ) (h2 : 2 ≤ T) (hN : 0 < N) (hall : ∀ ω, ∀ a ∈ disp ω, a.n0 = N ∧ 2 ≤ a.n1)
    (hc : ∀ l, charge = .array l → l.length = N) (i : ℕ)
    (hhalf : ∀ ω, i < (ds ω).length / 2) (a : Ω → Arr3 ℝ)
    (ha : ∀ ω, (ds ω)[i]? = some (a ω) ∧ (a ω).n1 = T) (no : ℝ) (hi : nO[i]? = some no) (m v : ℝ)
    (hX : SameMoments μ (Finset.range T) (fun k ω => sqSum Finset.univ charge.of (a ω) k) m v) :
    ∃ n w : Ω → ℝ, (∀ ω, (b ω).n[i]? = some (n ω) ∧ (b ω).v[i]? = some (some (w ω))) ∧
      ∫ ω, n ω ∂μ = m ∧ ∫ ω, (n ω - m) ^ 2 ∂μ = v / T ∧ ∫ ω, w ω ∂μ = v / (no / N) ∧
      (v ≠ 0 → (∫ ω, w ω ∂μ = ∫ ω, (n ω - m) ^ 2 ∂μ ↔ no = (N * T : ℕ))) := by
  have hpos : 0 < no := hno no (List.mem_of_getElem? hi)
  have hNr : (0 : ℝ) < N := by exact_mod_cast hN
  have h0 : (Finset.range T).card ≠ 0 := by rw [Finset.card_range]; omega
  have e1 := hX.mean_meanOn h0
  have e2 := hX.var_meanOn h0
  have e3 := hX.mean_varOn (by rw [Finset.card_range]; omega)
  rw [Finset.card_range] at e2
  have e4 : ∫ ω, varOn (Finset.range T) (fun k => sqSum Finset.univ charge.of (a ω) k) / (no / N) ∂μ = v / (no / N) := by
    rw [integral_div, e3]
  refine ⟨fun ω => meanOn (Finset.range T) fun k => sqSum Finset.univ charge.of (a ω) k,
    fun ω => varOn (Finset.range T) (fun k => sqSum Finset.univ charge.of (a ω) k) / (no / N), fun ω => ?_, e1, e2, e4, fun hv => ?_⟩
  · obtain ⟨ds₁, dts, k1, -, k2, -⟩ := C31_mscd_ignores_dimension sq o opt hblock g (g' ω) deltaT (disp ω) charge nO sub d (b ω) N
      (fun l hl x hx => (hall ω x (pyStride_mem hl (List.mem_of_mem_take hx))).2) (fun x hx => (hall ω x hx).1) hc (h ω)
    obtain ⟨-, -, -, -, -, ds₂, k4, k5⟩ := C32_variance_mscd sq hsq o opt hblock g (g' ω) deltaT (disp ω) charge nO hno N hN
      (fun x hx => (hall ω x hx).1) hc sub d (b ω) (h ω)
    have hmem := hall ω (a ω) (pyStride_mem (hds ω) (List.mem_of_getElem? (ha ω).1))
    rw [hds ω] at k1 k4
    obtain rfl := Except.ok.inj k1
    obtain rfl := Except.ok.inj k4
    have f2 : (b ω).n[i]? = some (mscd Finset.univ charge.of (a ω)) := by
      rw [k2, List.getElem?_map, List.getElem?_take_of_lt (hhalf ω), (ha ω).1]; rfl
    obtain ⟨a₂, no', s, f3, f4, f5, -⟩ := k5 i (List.getElem?_eq_some_iff.mp f2).1
    rw [(ha ω).1] at f3
    obtain rfl := Option.some.inj f3
    rw [hi] at f4
    obtain rfl := Option.some.inj f4
    rw [f2, f5, mscd_meanOn, (ha ω).2]
    exact ⟨rfl, rfl⟩
  · rw [e2, e4]
    have hT : (0 : ℝ) < T := by exact_mod_cast (by omega : 0 < T)
    rw [Nat.cast_mul]
    constructor
    · intro e
      rw [div_eq_div_iff (div_pos hpos hNr).ne' hT.ne'] at e
      have := mul_left_cancel₀ hv e
      rw [this]; field_simp
    · intro e; rw [e]; field_simp

/-! ## C108: the resampled variance -/

/-- The state of the generator after `r` resamples of `n` picks from `m + 1` items. -/
def stateAfter (o : Oracle ℝ G) (m n : ℕ) : ℕ → G → G
  | 0, g => g
  | r + 1, g => stateAfter o m n r (o.draws g m n).2

theorem bootstrapMeans_ofFn (o : Oracle ℝ G) (x : ℝ) (xs : List ℝ) (ns : ℝ) (hns : 1 ≤ pyInt ns) (R : ℕ) (g : G) :
    bootstrapMeans o (x :: xs) ns R g = .ok (List.ofFn fun r : Fin R => meanOn Finset.univ fun j : Fin (pyInt ns).toNat =>
      (x :: xs)[((o.draws (stateAfter o xs.length (pyInt ns).toNat r g) xs.length (pyInt ns).toNat).1 j : Fin (xs.length + 1))],
      stateAfter o xs.length (pyInt ns).toNat R g) := by
  induction R generalizing g with
  | zero => simp [bootstrapMeans, stateAfter]
  | succ R ih =>
    unfold bootstrapMeans resampleMean
    simp only [if_neg (not_lt.mpr hns)]
    rw [ih]
    simp only [List.ofFn_succ]
    refine congrArg Except.ok (Prod.ext (congrArg₂ List.cons ?_ rfl) rfl)
    unfold meanOn
    rw [List.sum_ofFn]
    simp [stateAfter]

theorem lists_ofFn {n : ℕ} (f : Fin n → ℝ) : Lists (List.ofFn f) Finset.univ f := by
  refine ⟨by simp, fun φ => ?_, fun x hx => ?_⟩
  · rw [List.map_ofFn, List.sum_ofFn]; rfl
  · obtain ⟨i, rfl⟩ := (List.mem_ofFn' f x).mp hx
    exact ⟨i, Finset.mem_univ _, rfl⟩

/-- **C108.** Let the picks of the resampling be uniform and pairwise independent, and their number `R` fixed (`max_resamples ≤ n_resamples`).
Then, for a given sample `l` of `N` values, the mean of the resampled means is the mean of the sample on average, and their unbiased variance is on average
`(1 - 1/N) · n_o/⌊n_o⌋` times the analytic variance `var(l, ddof=1) / n_o`. -/
theorem C108_resample (μ : Measure Ω) [IsProbabilityMeasure μ] (o : Oracle ℝ G) (l : List ℝ) (hl : 2 ≤ l.length) (nSamples : ℝ)
    (hns : 1 ≤ nSamples) (R maxR : ℕ) (hR : 2 ≤ R) (hmax : maxR ≤ R) (alpha : ℝ) (g g' : Ω → G) (vals : Ω → List ℝ) (w : Ω → Bool)
    (h : ∀ ω, sampleUntilNormal o l nSamples R maxR alpha (g ω) = .ok (vals ω, w ω, g' ω))
    (hD : UniformPicks μ fun (p : Fin R × Fin ⌊nSamples⌋₊) ω =>
      (o.draws (stateAfter o (l.length - 1) ⌊nSamples⌋₊ p.1 (g ω)) (l.length - 1) ⌊nSamples⌋₊).1 p.2) :
    ∃ n v : Ω → ℝ, (∀ ω, (vals ω).length = R ∧ npMean (vals ω) = some (n ω) ∧ npVar1 (vals ω) = some (v ω)) ∧
      ∫ ω, n ω ∂μ = meanOn Finset.univ (fun j : Fin l.length => l[j]) ∧
      ∫ ω, v ω ∂μ = (1 - 1 / (l.length : ℝ)) * (nSamples / ⌊nSamples⌋₊) * (varOn Finset.univ (fun j : Fin l.length => l[j]) / nSamples) := by
  obtain ⟨x, xs, rfl⟩ : ∃ x xs, l = x :: xs := by
    cases l with
    | nil => simp at hl
    | cons x xs => exact ⟨x, xs, rfl⟩
  simp only [List.length_cons, Nat.add_sub_cancel] at hD hl ⊢
  have hp : 1 ≤ pyInt nSamples := by
    unfold pyInt
    rw [if_pos (by linarith)]
    exact Int.le_floor.mpr (by simpa using hns)
  have hfl := pyInt_floor hp
  rw [← hfl] at hD ⊢
  have hn0 : (pyInt nSamples).toNat ≠ 0 := by omega
  obtain ⟨F, hF⟩ : ∃ F : Fin R → Ω → ℝ, F = fun (r : Fin R) ω => meanOn Finset.univ fun j : Fin (pyInt nSamples).toNat =>
      (x :: xs)[((o.draws (stateAfter o xs.length (pyInt nSamples).toNat r (g ω)) xs.length (pyInt nSamples).toNat).1 j : Fin (xs.length + 1))] :=
    ⟨_, rfl⟩
  have hvals : ∀ ω, vals ω = List.ofFn fun r => F r ω := by
    intro ω
    have := h ω
    unfold sampleUntilNormal at this
    rw [bootstrapMeans_ofFn o x xs nSamples hp R (g ω)] at this
    simp only at this
    have hlen : ∀ q : Fin R → ℝ, maxR ≤ (List.ofFn q).length := fun q => by simpa using hmax
    cases hn : o.normaltest (List.ofFn fun r : Fin R => meanOn Finset.univ fun j : Fin (pyInt nSamples).toNat =>
      (x :: xs)[((o.draws (stateAfter o xs.length (pyInt nSamples).toNat r (g ω)) xs.length (pyInt nSamples).toNat).1 j : Fin (xs.length + 1))]) with
    | error e => rw [hn] at this; cases this
    | ok p =>
    rw [hn] at this
    simp only at this
    unfold untilNormalLoop at this
    rw [dif_neg (by
      rintro ⟨-, hc⟩
      exact absurd (hlen _) (not_le.mpr hc))] at this
    obtain ⟨e, -⟩ := Prod.mk.inj (Except.ok.inj this)
    rw [← e, hF]
  have hs := (hD.sameMoments (by omega) (fun k => (x :: xs)[k]) Finset.univ).blocks hn0
  have hs' : SameMoments μ Finset.univ F (meanOn Finset.univ fun k : Fin (xs.length + 1) => (x :: xs)[k])
      ((meanOn Finset.univ fun a : Fin (xs.length + 1) => ((x :: xs)[a] - meanOn Finset.univ fun k : Fin (xs.length + 1) => (x :: xs)[k]) ^ 2) /
        (pyInt nSamples).toNat) := by
    rw [hF]; exact hs
  have hcR : (Finset.univ : Finset (Fin R)).card = R := by simp
  refine ⟨fun ω => meanOn Finset.univ fun r => F r ω, fun ω => varOn Finset.univ fun r => F r ω, fun ω => ⟨?_, ?_, ?_⟩,
    hs'.mean_meanOn (by omega), ?_⟩
  · rw [hvals ω]; simp
  · rw [hvals ω]
    exact (lists_ofFn fun r => F r ω).mean (by simpa using hR)
  · rw [hvals ω]
    exact (lists_ofFn fun r => F r ω).var (by simpa using hR)
  · rw [hs'.mean_varOn (by omega)]
    unfold varOn
    have e : ∀ f : Fin (xs.length + 1) → ℝ, meanOn Finset.univ f = (∑ k, f k) / ((xs.length + 1 : ℕ) : ℝ) := fun f => by
      unfold meanOn; simp
    rw [e fun a => _]
    have hc : (((xs.length + 1 : ℕ) : ℝ)) ≠ 0 := by exact_mod_cast (Nat.succ_ne_zero xs.length)
    have hc1 : (((xs.length + 1 : ℕ) : ℝ)) - 1 ≠ 0 := by
      have : (2 : ℝ) ≤ ((xs.length + 1 : ℕ) : ℝ) := by exact_mod_cast hl
      linarith
    have hf : (((pyInt nSamples).toNat : ℕ) : ℝ) ≠ 0 := by exact_mod_cast hn0
    have hs0 : nSamples ≠ 0 := by linarith
    simp only [Finset.card_univ, Fintype.card_fin]
    generalize (∑ k : Fin (xs.length + 1), ((x :: xs)[k] - meanOn Finset.univ fun k : Fin (xs.length + 1) => (x :: xs)[k]) ^ 2) = q
    field_simp

/-! ## Examples -/

/-- Whether an atom hops in observation `k` is decided by coin `k`. -/
noncomputable def exHop (ω : Bool × Bool) (k : ℕ) : ℝ := if (if k = 0 then ω.1 else ω.2) then 1 else 0

/-- One atom, two observations; the atom hops by 1 along x or rests. -/
noncomputable def exHops (ω : Bool × Bool) : Arr3 ℝ := ⟨1, 2, fun _ k => ![exHop ω k, 0, 0]⟩

theorem exHop_moments {ι : Type} (S : Finset ι) (k : ι → ℕ) (hk : ∀ p ∈ S, k p < 2) (hinj : ∀ p ∈ S, ∀ q ∈ S, p ≠ q → k p ≠ k q) :
    SameMoments exCoins S (fun p ω => exHop ω (k p) ^ 2) (1 / 2) (1 / 4) := by
  have h01 : ∀ p ∈ S, k p = 0 ∨ k p = 1 := fun p hp => by have := hk p hp; omega
  refine ⟨fun p _ => MemLp.of_discrete, ?_, ?_, ?_⟩
  · intro p hp
    rw [exCoins_integral]
    rcases h01 p hp with e | e <;> norm_num [exHop, e]
  · intro p hp
    rw [exCoins_integral]
    rcases h01 p hp with e | e <;> norm_num [exHop, e]
  · intro p hp q hq hpq
    have := hinj p hp q hq hpq
    rw [exCoins_integral]
    rcases h01 p hp with e | e <;> rcases h01 q hq with f | f
    · omega
    · norm_num [exHop, e, f]
    · norm_num [exHop, e, f]
    · omega

/-- `C107_msd`: two independent hops; with `n_o = 2` the reported variance is right on average, namely 1/8. -/
example : ∃ b : Bool × Bool → Boot ℝ, (∀ ω, msdBootstrap Real.sqrt (exOracle ℝ) (exOpts ℝ) () [1] [exHops ω] [2] 1 "x" = .ok (b ω, ())) ∧
    ∃ n w : Bool × Bool → ℝ, (∀ ω, (b ω).n[0]? = some (n ω) ∧ (b ω).v[0]? = some (some (w ω))) ∧
      ∫ ω, w ω ∂exCoins = 1 / 8 ∧ ∫ ω, w ω ∂exCoins = ∫ ω, (n ω - 1 / 2) ^ 2 ∂exCoins := by
  have hb : ∀ ω, ∃ b, msdBootstrap Real.sqrt (exOracle ℝ) (exOpts ℝ) () [1] [exHops ω] [2] 1 "x" = .ok (b, ()) := by
    intro ω
    apply msdBootstrap_ok _ _ _ rfl rfl _ _ _ _ _ (by decide +kernel) (by simp) 1
    · intro i a h
      match i with
      | 0 => simp at h; subst h; simp [exHops]
      | i + 1 => simp at h
    · simp
    · simp
  choose b hb using hb
  refine ⟨b, hb, ?_⟩
  have hA : axesOf "x" = {0} := by decide +kernel
  have hX : SameMoments exCoins (Finset.range 1 ×ˢ Finset.range 2) (fun p ω => sqLen (axesOf "x") (exHops ω) p) (1 / 2) (1 / 4) := by
    have := exHop_moments (Finset.range 1 ×ˢ Finset.range 2) Prod.snd (by simp) (by
      rintro ⟨p1, p2⟩ hp ⟨q1, q2⟩ hq hne e
      simp only [Finset.mem_product, Finset.mem_range] at hp hq e
      exact hne (by rw [e, show p1 = q1 by omega]))
    convert this using 3 with p ω
    rw [hA]
    simp [sqLen, exHops]
  obtain ⟨n, w, h1, -, -, h2, h3⟩ := C107_msd exCoins Real.sqrt exReal_sqrt (exOracle ℝ) (exOpts ℝ) rfl () (fun _ => ()) [1] (fun ω => [exHops ω])
    (fun ω => [exHops ω]) [2] (by simp) 1 "x" b hb (fun ω => pyStride_one _) 0 1 2 (by norm_num) exHops (fun ω => ⟨rfl, rfl, rfl⟩) 2 rfl
    (1 / 2) (1 / 4) hX
  exact ⟨n, w, h1, by rw [h2]; norm_num, (h3 (by norm_num)).mpr (by norm_num)⟩

/-- `C107_mstd`: the same hops; the second interval is there because only the first half of the intervals is used. -/
example : ∃ b : Bool × Bool → Boot ℝ,
    (∀ ω, mstdBootstrap Real.sqrt (exOracle ℝ) (exOpts ℝ) () [1, 2] [exHops ω, exHops ω] [4, 2] 1 "x" = .ok (b ω, ())) ∧
    ∃ n w : Bool × Bool → ℝ, (∀ ω, (b ω).n[0]? = some (n ω) ∧ (b ω).v[0]? = some (some (w ω))) ∧
      ∫ ω, w ω ∂exCoins = 1 / 16 ∧ ∫ ω, (n ω - 1 / 2) ^ 2 ∂exCoins = 1 / 8 := by
  have hb : ∀ ω, ∃ b, mstdBootstrap Real.sqrt (exOracle ℝ) (exOpts ℝ) () [1, 2] [exHops ω, exHops ω] [4, 2] 1 "x" = .ok (b, ()) := by
    intro ω
    have hU : Usable 3 1 (⟨[1, 2], [exHops ω, exHops ω], [4, 2], some 1⟩ : Base ℝ) :=
      ⟨by simp, rfl, le_rfl, by simp [exHops], by
        intro i h
        have : i = 0 := by
          change i + 1 < 2 at h
          omega
        subst this
        exact le_refl 2, by norm_num⟩
    obtain ⟨-, ⟨b, g', h, -⟩, -⟩ := analyzers_ok hU Real.sqrt (exOracle ℝ) () { opt := exOpts ℝ, dimension := "x" }
      (StatisticsRun.off rfl rfl) (le_refl 1) (by decide +kernel)
    exact ⟨b, h⟩
  choose b hb using hb
  refine ⟨b, hb, ?_⟩
  have hA : axesOf "x" = {0} := by decide +kernel
  have hX : SameMoments exCoins (Finset.range 2) (fun k ω => sqSum (axesOf "x") (fun _ => 1) (exHops ω) k) (1 / 2) (1 / 4) := by
    have := exHop_moments (Finset.range 2) id (by simp) (fun p _ q _ h => h)
    convert this using 3 with p ω
    rw [hA]
    simp [sqSum, exHops]
  obtain ⟨n, w, h1, -, h3, h2, -⟩ := C107_mstd exCoins Real.sqrt exReal_sqrt (exOracle ℝ) (exOpts ℝ) rfl () (fun _ => ()) [1, 2]
    (fun ω => [exHops ω, exHops ω]) (fun ω => [exHops ω, exHops ω]) [4, 2] (by simp) 1 "x" b hb (fun ω => pyStride_one _) 1 2 le_rfl one_pos
    (fun ω a ha => by simp at ha; subst ha; exact ⟨rfl, le_rfl⟩) 0 (fun ω => by simp) exHops (fun ω => ⟨rfl, rfl⟩) 4 rfl (1 / 2) (1 / 4) hX
  exact ⟨n, w, h1, by rw [h2]; norm_num, by rw [h3]; norm_num⟩

/-- `C107_mscd`: the same hops of an ion of charge -1; the dimension plays no role. -/
example : ∃ b : Bool × Bool → Boot ℝ,
    (∀ ω, mscdBootstrap Real.sqrt (exOracle ℝ) (exOpts ℝ) () [1, 2] [exHops ω, exHops ω] (.scalar (-1)) [4, 2] 1 "x" = .ok (b ω, ())) ∧
    ∃ n w : Bool × Bool → ℝ, (∀ ω, (b ω).n[0]? = some (n ω) ∧ (b ω).v[0]? = some (some (w ω))) ∧
      ∫ ω, w ω ∂exCoins = 1 / 16 ∧ ∫ ω, (n ω - 1 / 2) ^ 2 ∂exCoins = 1 / 8 := by
  have hb : ∀ ω, ∃ b, mscdBootstrap Real.sqrt (exOracle ℝ) (exOpts ℝ) () [1, 2] [exHops ω, exHops ω] (.scalar (-1)) [4, 2] 1 "x" = .ok (b, ()) := by
    intro ω
    have hU : Usable 3 1 (⟨[1, 2], [exHops ω, exHops ω], [4, 2], some 1⟩ : Base ℝ) :=
      ⟨by simp, rfl, le_rfl, by simp [exHops], by
        intro i h
        have : i = 0 := by
          change i + 1 < 2 at h
          omega
        subst this
        exact le_refl 2, by norm_num⟩
    obtain ⟨-, -, hall⟩ := analyzers_ok hU Real.sqrt (exOracle ℝ) () { opt := exOpts ℝ, dimension := "x" }
      (StatisticsRun.off rfl rfl) (le_refl 1) (by decide +kernel)
    obtain ⟨b, g', h, -⟩ := hall (.scalar (-1)) (fun l h => by cases h)
    exact ⟨b, h⟩
  choose b hb using hb
  refine ⟨b, hb, ?_⟩
  have hX : SameMoments exCoins (Finset.range 2) (fun k ω => sqSum Finset.univ (Charge.scalar (-1 : ℝ)).of (exHops ω) k) (1 / 2) (1 / 4) := by
    have := exHop_moments (Finset.range 2) id (by simp) (fun p _ q _ h => h)
    convert this using 3 with p ω
    simp [sqSum, exHops, Charge.of, Fin.sum_univ_three]
  obtain ⟨n, w, h1, -, h3, h2, -⟩ := C107_mscd exCoins Real.sqrt exReal_sqrt (exOracle ℝ) (exOpts ℝ) rfl () (fun _ => ()) [1, 2]
    (fun ω => [exHops ω, exHops ω]) (fun ω => [exHops ω, exHops ω]) (.scalar (-1)) [4, 2] (by simp) 1 "x" b hb (fun ω => pyStride_one _) 1 2 le_rfl one_pos
    (fun ω a ha => by simp at ha; subst ha; exact ⟨rfl, le_rfl⟩) (fun l h => by cases h) 0 (fun ω => by simp) exHops (fun ω => ⟨rfl, rfl⟩) 4 rfl (1 / 2) (1 / 4) hX
  exact ⟨n, w, h1, by rw [h2]; norm_num, by rw [h3]; norm_num⟩

/-- A generator that reads its picks from a list of coins. -/
noncomputable def exPicker : Oracle ℝ (List Bool) :=
  { draws := fun g m n => (fun j => if g.getD j false then Fin.last m else 0, g.drop n), dirichlet := fun g k a => (fun _ => 1, g),
    category := fun g m => (0, g), normaltest := fun _ => .ok none, reblock := fun _ => .error .external }

/-- `C108_resample`: two resamples of one value each from the sample 3, 5; `n_o` is 3/2. -/
example : ∃ vals : Bool × Bool → List ℝ, (∀ ω, ∃ w g', sampleUntilNormal exPicker [3, 5] (3 / 2) 2 2 1 [ω.1, ω.2] = .ok (vals ω, w, g')) ∧
    ∃ n v : Bool × Bool → ℝ, (∀ ω, (vals ω).length = 2 ∧ npMean (vals ω) = some (n ω) ∧ npVar1 (vals ω) = some (v ω)) ∧
      ∫ ω, n ω ∂exCoins = 4 ∧ ∫ ω, v ω ∂exCoins = 1 := by
  have hfl : ⌊(3 / 2 : ℝ)⌋₊ = 1 := by rw [Nat.floor_eq_iff] <;> norm_num
  have hr : ∀ ω : Bool × Bool, ∃ vals w g', sampleUntilNormal exPicker [3, 5] (3 / 2) 2 2 1 [ω.1, ω.2] = .ok (vals, w, g') := by
    intro ω
    have hp : 1 ≤ pyInt (3 / 2 : ℝ) := by
      unfold pyInt
      rw [if_pos (by norm_num)]
      exact Int.le_floor.mpr (by norm_num)
    unfold sampleUntilNormal
    rw [bootstrapMeans_ofFn exPicker 3 [5] (3 / 2) hp 2 _]
    simp only [exPicker]
    unfold untilNormalLoop
    rw [dif_neg (by simp)]
    exact ⟨_, _, _, rfl⟩
  choose vals w g' hr using hr
  refine ⟨vals, fun ω => ⟨_, _, hr ω⟩, ?_⟩
  have hD : UniformPicks exCoins fun (p : Fin 2 × Fin ⌊(3 / 2 : ℝ)⌋₊) (ω : Bool × Bool) =>
      (exPicker.draws (stateAfter exPicker 1 ⌊(3 / 2 : ℝ)⌋₊ p.1 [ω.1, ω.2]) 1 ⌊(3 / 2 : ℝ)⌋₊).1 p.2 := by
    rw [hfl]
    have hl1 : (Fin.last 1 : Fin (1 + 1)) = 1 := rfl
    have hm : ∀ q : Bool × Bool → Prop, exCoins.real {ω | q ω} = ∫ ω, {ω | q ω}.indicator (fun _ => (1 : ℝ)) ω ∂exCoins := fun q => by
      rw [integral_indicator_const _ (Set.Finite.measurableSet (Set.toFinite _)), smul_eq_mul, mul_one]
    refine ⟨fun i a => Set.Finite.measurableSet (Set.toFinite _), ?_, ?_⟩
    · rintro ⟨r, j⟩ a
      rw [hm, exCoins_integral]
      fin_cases r <;> fin_cases j <;> fin_cases a <;> norm_num [Set.indicator, exPicker, stateAfter, hl1]
    · rintro ⟨r, j⟩ ⟨r', j'⟩ hne a b
      rw [hm, exCoins_integral]
      fin_cases r <;> fin_cases j <;> fin_cases r' <;> fin_cases j' <;> first | exact absurd rfl hne | (fin_cases a <;> fin_cases b <;> norm_num [Set.indicator, exPicker, stateAfter, hl1])
  obtain ⟨n, v, h1, h2, h3⟩ := C108_resample exCoins exPicker [3, 5] le_rfl (3 / 2) (by norm_num) 2 2 le_rfl le_rfl 1 (fun ω => [ω.1, ω.2]) g' vals w hr hD
  refine ⟨n, v, h1, ?_, ?_⟩
  · rw [h2]
    norm_num [meanOn, Fin.sum_univ_two]
  · rw [h3, hfl]
    have h4 : (meanOn Finset.univ fun j : Fin [(3 : ℝ), 5].length => [(3 : ℝ), 5][j]) = 4 := by norm_num [meanOn, Fin.sum_univ_two]
    unfold varOn
    rw [h4, show (∑ j : Fin [(3 : ℝ), 5].length, ([(3 : ℝ), 5][j] - 4) ^ 2) = 2 by
      rw [show (∑ j : Fin [(3 : ℝ), 5].length, ([(3 : ℝ), 5][j] - 4) ^ 2) = ∑ j : Fin 2, ([(3 : ℝ), 5][j] - 4) ^ 2 from rfl, Fin.sum_univ_two]
      norm_num]
    norm_num

end Kinisi

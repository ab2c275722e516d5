import Verif.Props.Arrhenius
import Verif.Spec.ArrheniusFit
import Mathlib.Tactic.LinearCombination

/-!
# C128: fits of Arrhenius laws
-/

set_option linter.unusedVariables false

namespace Kinisi
open Spec

theorem misfit_cons (p : ℝ × ℝ × ℝ) (data : List (ℝ × ℝ × ℝ)) (law : ℝ → Option ℝ) (m : ℝ) :
    misfit (p :: data) law = some m ↔ ∃ x r, law p.1 = some x ∧ misfit data law = some r ∧ m = ((p.2.1 - x) / p.2.2) ^ 2 + r := by
  unfold misfit
  rw [List.mapM_cons]
  cases law p.1 with
  | none => simp
  | some x =>
    cases data.mapM fun p => (law p.1).map fun x => ((p.2.1 - x) / p.2.2) ^ 2 with
    | none => simp
    | some l => simp [eq_comm]

theorem misfit_nonneg {data : List (ℝ × ℝ × ℝ)} {law : ℝ → Option ℝ} : ∀ {m : ℝ}, misfit data law = some m → 0 ≤ m := by
  induction data with
  | nil => intro m h; simp [misfit] at h; exact h.le
  | cons p data ih =>
    intro m h
    obtain ⟨x, r, -, h2, rfl⟩ := (misfit_cons p data law m).mp h
    have := ih h2
    positivity

theorem misfit_zero {data : List (ℝ × ℝ × ℝ)} {law : ℝ → Option ℝ} (hσ : ∀ p ∈ data, p.2.2 ≠ 0) : misfit data law = some 0 ↔ Follows data law := by
  induction data with
  | nil => simp [misfit, Follows]
  | cons p data ih =>
    have ih := ih fun q hq => hσ q (List.mem_cons_of_mem _ hq)
    have hp := hσ p List.mem_cons_self
    rw [misfit_cons]
    constructor
    · rintro ⟨x, r, h1, h2, h3⟩
      have hr := misfit_nonneg h2
      have h4 : ((p.2.1 - x) / p.2.2) ^ 2 = 0 := le_antisymm (by linarith) (sq_nonneg _)
      have h5 : r = 0 := by linarith
      have h6 : p.2.1 - x = 0 := by
        rcases div_eq_zero_iff.mp (pow_eq_zero_iff (n := 2) (by norm_num) |>.mp h4) with h | h
        · exact h
        · exact absurd h hp
      intro q hq
      rcases List.mem_cons.mp hq with rfl | hq
      · rw [h1]; congr 1; linarith
      · exact ih.mp (by rw [h2, h5]) q hq
    · intro h
      refine ⟨p.2.1, 0, h p List.mem_cons_self, ih.mpr fun q hq => h q (List.mem_cons_of_mem _ hq), by simp⟩

/-- Data that follow a law within the bounds are best described by laws that they follow, and by no others. -/
theorem best_follows {data : List (ℝ × ℝ × ℝ)} (hσ : ∀ p ∈ data, p.2.2 ≠ 0) {bounds : List (ℝ × Option ℝ)} {law : List ℝ → ℝ → Option ℝ} {θ₀ : List ℝ}
    (h0 : Within bounds θ₀) (hf : Follows data (law θ₀)) (θ : List ℝ) :
    BestWithin bounds (fun θ => misfit data (law θ)) θ ↔ Within bounds θ ∧ Follows data (law θ) := by
  constructor
  · rintro ⟨h1, m, h2, h3⟩
    have := h3 θ₀ 0 h0 ((misfit_zero hσ).mpr hf)
    have hm := misfit_nonneg h2
    have : m = 0 := le_antisymm this hm
    subst this
    exact ⟨h1, (misfit_zero hσ).mp h2⟩
  · rintro ⟨h1, h2⟩
    exact ⟨h1, 0, (misfit_zero hσ).mpr h2, fun θ' m' _ h => misfit_nonneg h⟩

/-- The Arrhenius law with parameters in a list. -/
noncomputable def standardLaw (θ : List ℝ) (T : ℝ) : Option ℝ := arrhenius T (θ.getD 0 0) (θ.getD 1 0)

/-- The super-Arrhenius law with parameters in a list. -/
noncomputable def superLaw (θ : List ℝ) (T : ℝ) : Option ℝ := superArrhenius T (θ.getD 0 0) (θ.getD 1 0) (θ.getD 2 0)

/-- Two Arrhenius laws that agree at two temperatures are the same. -/
theorem arrhenius_unique {T T' Ea A Ea' A' D D' : ℝ} (hT : 0 < T) (hT' : 0 < T') (hne : T ≠ T') (hA : 0 < A) (h1 : arrhenius T Ea A = some D)
    (h2 : arrhenius T' Ea A = some D') (h3 : arrhenius T Ea' A' = some D) (h4 : arrhenius T' Ea' A' = some D') : Ea' = Ea ∧ A' = A := by
  have hD : 0 < D := by
    obtain ⟨d, e1, e2⟩ := C66_pos T Ea A hT hA
    rw [h1] at e1
    rwa [Option.some.inj e1]
  have hA' : 0 < A' := by
    rw [C66_value T Ea' A' hT, Option.some.injEq] at h3
    rw [← h3] at hD
    exact (mul_pos_iff_of_pos_right (Real.exp_pos _)).mp hD
  have hE : Ea' = Ea := (C66_two_points T T' Ea' A' D D' hT hT' hne hA' h3 h4).trans (C66_two_points T T' Ea A D D' hT hT' hne hA h1 h2).symm
  refine ⟨hE, ?_⟩
  rw [C66_value T Ea' A' hT, hE, Option.some.injEq] at h3
  rw [C66_value T Ea A hT, Option.some.injEq] at h1
  exact mul_right_cancel₀ (Real.exp_pos _).ne' (h3.trans h1.symm)

/-- **C128, what holds.** If the data follow an Arrhenius law with parameters within the bounds and positive prefactor, and there are two different temperatures, then these parameters are the best ones and the only best ones.
Missing: laws outside the default bounds. -/
theorem C128_standard_partial (bounds : Bounds ℝ) (data : List (ℝ × ℝ × ℝ)) (hT : ∀ p ∈ data, 0 < p.1 ∧ p.2.2 ≠ 0) (h2 : ∃ p ∈ data, ∃ q ∈ data, p.1 ≠ q.1) (Ea A : ℝ) (hA : 0 < A)
    (hb : Within bounds [Ea, A]) (hf : Follows data fun T => arrhenius T Ea A) (θ : List ℝ) (hθ : θ.length = 2) :
    BestWithin bounds (fun θ => misfit data (standardLaw θ)) θ ↔ θ = [Ea, A] := by
  rw [best_follows (θ₀ := [Ea, A]) (fun p hp => (hT p hp).2) hb hf]
  constructor
  · rintro ⟨-, h⟩
    match θ, hθ with
    | [Ea', A'], _ =>
      obtain ⟨p, hp, q, hq, hne⟩ := h2
      obtain ⟨rfl, rfl⟩ := arrhenius_unique (hT p hp).1 (hT q hq).1 hne hA (hf p hp) (hf q hq) (h p hp) (h q hq)
      rfl
  · rintro rfl
    exact ⟨hb, hf⟩

/-- **C128, what holds (default bounds).** If no bounds are given, every law with an activation energy from 0 to 1 eV and a prefactor up to 10²⁰ is the one best law of its data. -/
theorem C128_default_partial (data : List (ℝ × ℝ × ℝ)) (hT : ∀ p ∈ data, 0 < p.1 ∧ p.2.2 ≠ 0) (h2 : ∃ p ∈ data, ∃ q ∈ data, p.1 ≠ q.1) (Ea A : ℝ) (hE : 0 ≤ Ea ∧ Ea ≤ 1) (hA : 0 < A ∧ A ≤ 10 ^ 20)
    (hf : Follows data fun T => arrhenius T Ea A) (θ : List ℝ) (hθ : θ.length = 2) :
    BestWithin (standardBounds (10 ^ 20) none) (fun θ => misfit data (standardLaw θ)) θ ↔ θ = [Ea, A] := by
  refine C128_standard_partial _ data hT h2 Ea A hA.1 ?_ hf θ hθ
  simp only [standardBounds, Option.getD_none, Within]
  refine ⟨hE.1, ?_, hA.1.le, ?_, trivial⟩
  · intro u hu; cases hu; exact hE.2
  · intro u hu; cases hu; exact hA.2

/-- **C128, violated.** With the default bounds no law with an activation energy of more than 1 eV is found: the data of 1.5 eV at 600 and 800 K follow an Arrhenius law, but every law within the bounds misses them. -/
theorem C128_violated : ∃ data : List (ℝ × ℝ × ℝ), data.map Prod.fst = [600, 800] ∧ Follows data (fun T => arrhenius T (3 / 2) 1) ∧ (∀ p ∈ data, 0 < p.2.1 ∧ p.2.2 = p.2.1 / 10) ∧
    ∀ θ, Within (standardBounds (10 ^ 20) none) θ → ¬ Follows data (standardLaw θ) ∧ θ.getD 0 0 ≠ 3 / 2 := by
  obtain ⟨D, h1, h2⟩ := C66_pos 600 (3 / 2) 1 (by norm_num) one_pos
  obtain ⟨D', h3, h4⟩ := C66_pos 800 (3 / 2) 1 (by norm_num) one_pos
  refine ⟨[(600, D, D / 10), (800, D', D' / 10)], rfl, ?_, ?_, fun θ hθ => ?_⟩
  · intro p hp
    simp only [List.mem_cons, List.not_mem_nil, or_false] at hp
    rcases hp with rfl | rfl
    · exact h1
    · exact h3
  · intro p hp
    simp only [List.mem_cons, List.not_mem_nil, or_false] at hp
    rcases hp with rfl | rfl
    · exact ⟨h2, rfl⟩
    · exact ⟨h4, rfl⟩
  · match θ, hθ with
    | [Ea, A], hθ =>
      obtain ⟨-, h, -⟩ := hθ
      have hle : Ea ≤ 1 := h 1 rfl
      constructor
      · intro hf
        have e1 := hf _ List.mem_cons_self
        have e2 := hf (800, D', D' / 10) (by simp)
        obtain ⟨rfl, -⟩ := arrhenius_unique (by norm_num : (0 : ℝ) < 600) (by norm_num : (0 : ℝ) < 800) (by norm_num) one_pos h1 h3 e1 e2
        norm_num at hle
      · intro h
        simp only [List.getD_cons_zero] at h
        norm_num [h] at hle

/-- A quadratic polynomial with three roots vanishes. -/
theorem three_roots {α β γ x y z : ℝ} (hxy : x ≠ y) (hxz : x ≠ z) (hyz : y ≠ z) (h1 : α * x ^ 2 + β * x + γ = 0) (h2 : α * y ^ 2 + β * y + γ = 0)
    (h3 : α * z ^ 2 + β * z + γ = 0) : α = 0 ∧ β = 0 ∧ γ = 0 := by
  have e1 : α * (x + y) + β = 0 := by
    have : (x - y) * (α * (x + y) + β) = 0 := by linear_combination h1 - h2
    rcases mul_eq_zero.mp this with h | h
    · exact absurd (sub_eq_zero.mp h) hxy
    · exact h
  have e2 : α * (x + z) + β = 0 := by
    have : (x - z) * (α * (x + z) + β) = 0 := by linear_combination h1 - h3
    rcases mul_eq_zero.mp this with h | h
    · exact absurd (sub_eq_zero.mp h) hxz
    · exact h
  have e3 : α = 0 := by
    have : (y - z) * α = 0 := by linear_combination e1 - e2
    rcases mul_eq_zero.mp this with h | h
    · exact absurd (sub_eq_zero.mp h) hyz
    · exact h
  have e4 : β = 0 := by rw [e3] at e1; linarith
  exact ⟨e3, e4, by rw [e3, e4] at h1; linarith⟩

theorem superArrhenius_log {T Ea A T0 D : ℝ} (hA : 0 < A) (h : superArrhenius T Ea A T0 = some D) :
    T - T0 ≠ 0 ∧ 0 < D ∧ Real.log D * (T - T0) = Real.log A * (T - T0) - Ea / rEV := by
  unfold superArrhenius at h
  have hr := rEV_pos.ne'
  by_cases hz : rEV * (T - T0) = 0
  · rw [if_pos hz] at h; cases h
  · rw [if_neg hz, Option.some.injEq] at h
    have hT : T - T0 ≠ 0 := fun h0 => hz (by rw [h0, mul_zero])
    refine ⟨hT, by rw [← h]; positivity, ?_⟩
    rw [← h, Real.log_mul hA.ne' (Real.exp_pos _).ne', Real.log_exp]
    field_simp
    ring

/-- Two super-Arrhenius laws with activation energy that agree at three temperatures are the same. -/
theorem superArrhenius_unique {x y z Ea A T0 Ea' A' T0' D₁ D₂ D₃ : ℝ} (hxy : x ≠ y) (hxz : x ≠ z) (hyz : y ≠ z) (hA : 0 < A) (hE : Ea ≠ 0)
    (h1 : superArrhenius x Ea A T0 = some D₁) (h2 : superArrhenius y Ea A T0 = some D₂) (h3 : superArrhenius z Ea A T0 = some D₃)
    (k1 : superArrhenius x Ea' A' T0' = some D₁) (k2 : superArrhenius y Ea' A' T0' = some D₂) (k3 : superArrhenius z Ea' A' T0' = some D₃) :
    Ea' = Ea ∧ A' = A ∧ T0' = T0 := by
  have hr := rEV_pos.ne'
  obtain ⟨a1, d1, a2⟩ := superArrhenius_log hA h1
  obtain ⟨b1, -, b2⟩ := superArrhenius_log hA h2
  obtain ⟨c1, -, c2⟩ := superArrhenius_log hA h3
  have hA' : 0 < A' := by
    unfold superArrhenius at k1
    split at k1
    · cases k1
    · rw [Option.some.injEq] at k1
      rw [← k1] at d1
      exact (mul_pos_iff_of_pos_right (Real.exp_pos _)).mp d1
  obtain ⟨a3, -, a4⟩ := superArrhenius_log hA' k1
  obtain ⟨b3, -, b4⟩ := superArrhenius_log hA' k2
  obtain ⟨c3, -, c4⟩ := superArrhenius_log hA' k3
  -- the difference of the two laws, cross-multiplied
  have poly : ∀ T L : ℝ, L * (T - T0) = Real.log A * (T - T0) - Ea / rEV → L * (T - T0') = Real.log A' * (T - T0') - Ea' / rEV →
      (Real.log A - Real.log A') * T ^ 2 + (-(Real.log A - Real.log A') * (T0 + T0') - Ea / rEV + Ea' / rEV) * T +
        ((Real.log A - Real.log A') * T0 * T0' + Ea / rEV * T0' - Ea' / rEV * T0) = 0 := by
    intro T L e1 e2
    linear_combination (T - T0) * e2 - (T - T0') * e1
  obtain ⟨r1, r2, r3⟩ := three_roots hxy hxz hyz (poly x _ a2 a4) (poly y _ b2 b4) (poly z _ c2 c4)
  have hlog : Real.log A' = Real.log A := by linarith
  have hE' : Ea' = Ea := by
    rw [r1] at r2
    have : Ea' / rEV = Ea / rEV := by linarith
    field_simp at this
    exact this
  refine ⟨hE', Real.log_injOn_pos hA' hA hlog, ?_⟩
  rw [r1, hE'] at r3
  have : Ea / rEV * (T0' - T0) = 0 := by linarith
  rcases mul_eq_zero.mp this with h | h
  · exact absurd h (div_ne_zero hE hr)
  · linarith

/-- **C128, super-Arrhenius.** Three different temperatures determine all three parameters, if the activation energy is not zero. -/
theorem C128_super_partial (bounds : Bounds ℝ) (data : List (ℝ × ℝ × ℝ)) (hσ : ∀ p ∈ data, p.2.2 ≠ 0)
    (h3 : ∃ p ∈ data, ∃ q ∈ data, ∃ s ∈ data, p.1 ≠ q.1 ∧ p.1 ≠ s.1 ∧ q.1 ≠ s.1) (Ea A T0 : ℝ) (hA : 0 < A) (hE : Ea ≠ 0)
    (hb : Within bounds [Ea, A, T0]) (hf : Follows data fun T => superArrhenius T Ea A T0) (θ : List ℝ) (hθ : θ.length = 3) :
    BestWithin bounds (fun θ => misfit data (superLaw θ)) θ ↔ θ = [Ea, A, T0] := by
  rw [best_follows (θ₀ := [Ea, A, T0]) hσ hb hf]
  constructor
  · rintro ⟨-, h⟩
    match θ, hθ with
    | [Ea', A', T0'], _ =>
      obtain ⟨p, hp, q, hq, s, hs, n1, n2, n3⟩ := h3
      obtain ⟨rfl, rfl, rfl⟩ := superArrhenius_unique n1 n2 n3 hA hE (hf p hp) (hf q hq) (hf s hs) (h p hp) (h q hq) (h s hs)
      rfl
  · rintro rfl
    exact ⟨hb, hf⟩

/-- **C128, unit of D.** With values and errors in another unit (`c`), the misfit of a law is that of the law with prefactor `c A`: the activation energy and `T0` do not depend on the unit. -/
theorem C128_unit (c : ℝ) (hc : c ≠ 0) (data : List (ℝ × ℝ × ℝ)) (Ea A T0 : ℝ) :
    misfit (data.map fun p => (p.1, c * p.2.1, c * p.2.2)) (standardLaw [Ea, c * A]) = misfit data (standardLaw [Ea, A]) ∧
    misfit (data.map fun p => (p.1, c * p.2.1, c * p.2.2)) (superLaw [Ea, c * A, T0]) = misfit data (superLaw [Ea, A, T0]) := by
  have gen : ∀ law law' : ℝ → Option ℝ, (∀ T, law' T = (law T).map (c * ·)) →
      misfit (data.map fun p => (p.1, c * p.2.1, c * p.2.2)) law' = misfit data law := by
    intro law law' h
    unfold misfit
    rw [List.mapM_map]
    congr 2
    funext p
    simp only [Function.comp, h]
    cases law p.1 with
    | none => rfl
    | some x =>
      simp only [Option.map_some, Option.some.injEq]
      rw [← mul_sub, mul_div_mul_left _ _ hc]
  constructor
  · refine gen _ _ fun T => ?_
    simp only [standardLaw, List.getD_cons_zero, List.getD_cons_succ, arrhenius]
    split
    · rfl
    · simp [mul_assoc]
  · refine gen _ _ fun T => ?_
    simp only [superLaw, List.getD_cons_zero, List.getD_cons_succ, superArrhenius]
    split
    · rfl
    · simp [mul_assoc]

/-- The hypotheses of `C128_standard_partial` and `C128_default_partial`: 0.5 eV at 300, 400 and 500 K, default bounds; the fit has one best law. -/
example : ∃ data : List (ℝ × ℝ × ℝ), data.map Prod.fst = [300, 400, 500] ∧
    ∀ θ : List ℝ, θ.length = 2 → (BestWithin (standardBounds (10 ^ 20) none) (fun θ => misfit data (standardLaw θ)) θ ↔ θ = [1 / 2, 10]) := by
  refine ⟨[300, 400, 500].map fun T => (T, 10 * Real.exp (-(1 / 2 / (rEV * T))), 1), rfl, fun θ hθ => ?_⟩
  refine C128_default_partial _ ?_ ⟨_, List.mem_map.mpr ⟨300, by simp, rfl⟩, _, List.mem_map.mpr ⟨400, by simp, rfl⟩, by norm_num⟩ (1 / 2) 10 (by norm_num) (by norm_num) ?_ θ hθ
  · intro p hp
    obtain ⟨T, hT, rfl⟩ := List.mem_map.mp hp
    simp only [List.mem_cons, List.not_mem_nil, or_false] at hT
    refine ⟨?_, one_ne_zero⟩
    rcases hT with rfl | rfl | rfl <;> norm_num
  · intro p hp
    obtain ⟨T, hT, rfl⟩ := List.mem_map.mp hp
    refine C66_value T (1 / 2) 10 ?_
    simp only [List.mem_cons, List.not_mem_nil, or_false] at hT
    rcases hT with rfl | rfl | rfl <;> norm_num

/-- The hypotheses of `C128_super_partial`: T0 = 100 K, the default bounds for data that start at 300 K. -/
example : ∃ data : List (ℝ × ℝ × ℝ), data.map Prod.fst = [300, 400, 500] ∧
    ∀ θ : List ℝ, θ.length = 3 → (BestWithin [(0, some 1), (0, some (10 ^ 20)), (0, some 300)] (fun θ => misfit data (superLaw θ)) θ ↔ θ = [1 / 2, 10, 100]) := by
  refine ⟨[300, 400, 500].map fun T => (T, 10 * Real.exp (-(1 / 2 / (rEV * (T - 100)))), 1), rfl, fun θ hθ => ?_⟩
  refine C128_super_partial _ _ ?_ ⟨_, List.mem_map.mpr ⟨300, by simp, rfl⟩, _, List.mem_map.mpr ⟨400, by simp, rfl⟩, _, List.mem_map.mpr ⟨500, by simp, rfl⟩,
    by norm_num, by norm_num, by norm_num⟩ (1 / 2) 10 100 (by norm_num) (by norm_num) ?_ ?_ θ hθ
  · intro p hp
    obtain ⟨T, hT, rfl⟩ := List.mem_map.mp hp
    exact one_ne_zero
  · simp [Within]
    norm_num
  · intro p hp
    obtain ⟨T, hT, rfl⟩ := List.mem_map.mp hp
    show superArrhenius T (1 / 2) 10 100 = _
    rw [C67_shift]
    refine C66_value (T - 100) (1 / 2) 10 ?_
    simp only [List.mem_cons, List.not_mem_nil, or_false] at hT
    rcases hT with rfl | rfl | rfl <;> norm_num

/-- `C128_unit`: from cm² / s to m² / s. -/
example : misfit [(300, 1 / 10 ^ 4 * 2, 1 / 10 ^ 4 * 3)] (standardLaw [1 / 2, 1 / 10 ^ 4 * 10]) = misfit [(300, 2, 3)] (standardLaw [1 / 2, 10]) :=
  (C128_unit (1 / 10 ^ 4) (by norm_num) [(300, 2, 3)] (1 / 2) 10 0).1

end Kinisi

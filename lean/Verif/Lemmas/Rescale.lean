import Verif.Spec.Rescale
import Verif.Spec.Observables
import Verif.Props.Ngp
import Verif.Lemmas.Agree
import Mathlib.Tactic.LinearCombination

/-!
# The objects of `diffusion.py` in other units of time, length and charge
-/

set_option linter.unusedSectionVars false
set_option linter.unusedVariables false

namespace Kinisi
open Spec
variable {K : Type} [Field K] [LinearOrder K] [IsStrictOrderedRing K] [FloorRing K] {G : Type}

theorem sum_map_mul (e : K) (l : List K) : (l.map fun x => e * x).sum = e * l.sum := by
  induction l with
  | nil => simp
  | cons a l ih => simp only [List.map_cons, List.sum_cons, ih, mul_add]

theorem npMean_mul (e : K) (l : List K) : npMean (l.map fun x => e * x) = (npMean l).map fun x => e * x := by
  unfold npMean
  rw [List.length_map, sum_map_mul]
  split_ifs
  · rfl
  · simp only [Option.map_some, Option.some.injEq]
    ring

theorem npVar1_mul (e : K) (l : List K) : npVar1 (l.map fun x => e * x) = (npVar1 l).map fun x => e ^ 2 * x := by
  unfold npVar1
  rw [List.length_map, sum_map_mul]
  split_ifs
  · rfl
  · simp only [List.map_map]
    have h : ((fun x : K => (x - e * l.sum / (l.length : K)) ^ 2) ∘ fun x => e * x) =
        (fun x => e ^ 2 * x) ∘ fun x => (x - l.sum / (l.length : K)) ^ 2 := by
      funext x
      simp only [Function.comp]
      ring
    rw [h, ← List.map_map, sum_map_mul]
    simp only [Option.map_some, Option.some.injEq]
    ring

theorem npDiv_mul (e : K) (x y : Option K) : npDiv (x.map fun x => e * x) y = (npDiv x y).map fun x => e * x := by
  unfold npDiv
  cases x with
  | none => rfl
  | some x =>
    cases y with
    | none => rfl
    | some y =>
      simp only [Option.map_some, Option.bind_some]
      split_ifs
      · rfl
      · simp only [Option.map_some, Option.some.injEq]
        ring

theorem isSqrt_homogeneous {sq : K → K} (hsq : IsSqrt sq) : Homogeneous sq := by
  intro e x he hx
  obtain ⟨h1, h2⟩ := hsq x hx
  obtain ⟨h3, h4⟩ := hsq (e ^ 2 * x) (mul_nonneg (sq_nonneg e) hx)
  refine (pow_left_inj₀ h3 (mul_nonneg he.le h1) two_ne_zero).mp ?_
  rw [h4, mul_pow, h2]

theorem npSqrt_mul {sq : K → K} (hsq : Homogeneous sq) {e : K} (he : 0 < e) (x : Option K) :
    npSqrt sq (x.map fun x => e ^ 2 * x) = (npSqrt sq x).map fun x => e * x := by
  unfold npSqrt
  cases x with
  | none => rfl
  | some x =>
    simp only [Option.map_some, Option.bind_some]
    by_cases h : x < 0
    · rw [if_pos h, if_pos (mul_neg_of_pos_of_neg (pow_pos he 2) h)]
      rfl
    · rw [if_neg h, if_neg (not_lt.mpr (mul_nonneg (sq_nonneg e) (not_lt.mp h))), hsq e x he (not_lt.mp h)]
      rfl

/-! ## Resampling -/

theorem getD_mul (c : K) (q : List K) (i : ℕ) : (q.map fun x => c * x).getD i 0 = c * q.getD i 0 := by
  rw [List.getD_eq_getElem?_getD, List.getD_eq_getElem?_getD, List.getElem?_map]
  cases q[i]? with
  | none => simp
  | some x => rfl

/-- The drawn mean, written without dependent indices. -/
theorem resampleMean_cons (o : Oracle K G) (g : G) (x : K) (xs : List K) (k : K) :
    resampleMean o g (x :: xs) k = if pyInt k < 1 then .error .valueError else
      .ok ((List.ofFn fun j : Fin (pyInt k).toNat => (x :: xs).getD ((o.draws g xs.length (pyInt k).toNat).1 j).val 0).sum / ((pyInt k).toNat : K),
        (o.draws g xs.length (pyInt k).toNat).2) := by
  have h : (fun j : Fin (pyInt k).toNat => (x :: xs).getD ((o.draws g xs.length (pyInt k).toNat).1 j).val 0) =
      fun j => (x :: xs)[(o.draws g xs.length (pyInt k).toNat).1 j] := by
    funext j
    rw [List.getD_eq_getElem?_getD, List.getElem?_eq_getElem (by simp only [List.length_cons]; omega)]
    rfl
  rw [h]
  rfl

theorem resampleMean_mul (o : Oracle K G) (e : K) (g : G) (l : List K) (k : K) :
    resampleMean o g (l.map fun x => e * x) k = (resampleMean o g l k).map fun r => (e * r.1, r.2) := by
  cases l with
  | nil => rfl
  | cons x xs =>
    rw [List.map_cons, resampleMean_cons, resampleMean_cons, List.length_map]
    split_ifs
    · rfl
    · simp only [Except.map, Except.ok.injEq, Prod.mk.injEq, and_true]
      rw [← mul_div_assoc, ← sum_map_mul, List.map_ofFn]
      congr 3
      funext j
      exact getD_mul e (x :: xs) _

theorem bootstrapMeans_mul (o : Oracle K G) (e : K) (l : List K) (k : K) : ∀ (n : ℕ) (g : G),
    bootstrapMeans o (l.map fun x => e * x) k n g = (bootstrapMeans o l k n g).map fun r => (r.1.map fun x => e * x, r.2) := by
  intro n
  induction n with
  | zero => intro g; rfl
  | succ n ih =>
    intro g
    simp only [bootstrapMeans]
    rw [resampleMean_mul]
    cases h1 : resampleMean o g l k with
    | error x => rfl
    | ok r =>
      simp only [Except.map]
      rw [ih]
      cases h2 : bootstrapMeans o l k n r.2 with
      | error x => rfl
      | ok r2 => rfl

theorem untilNormalLoop_mul (o : Oracle K G) (e : K) (ho : UnitFree e o) (l : List K) (k alpha : K) (maxR : ℕ) :
    ∀ (fuel : ℕ) (vals : List K) (p : Option K) (g : G), maxR - vals.length ≤ fuel →
    untilNormalLoop o (l.map fun x => e * x) k alpha maxR (vals.map fun x => e * x) p g =
      (untilNormalLoop o l k alpha maxR vals p g).map fun r => (r.1.map fun x => e * x, r.2) := by
  intro fuel
  induction fuel with
  | zero =>
    intro vals p g hf
    rw [untilNormalLoop, untilNormalLoop, dif_neg (by rw [List.length_map]; omega), dif_neg (by omega)]
    rfl
  | succ fuel ih =>
    intro vals p g hf
    rw [untilNormalLoop, untilNormalLoop]
    by_cases hc : pBelow p alpha = true ∧ vals.length < maxR
    · rw [dif_pos (by rwa [List.length_map]), dif_pos hc]
      have hb := bootstrapMeans_mul o e l k 100 g
      cases h1 : bootstrapMeans o l k 100 g with
      | error x =>
        rw [h1] at hb
        split
        · rename_i y hy
          rw [hb] at hy
          obtain rfl := Except.error.inj hy
          rfl
        · rename_i y hy
          rw [hb] at hy
          cases hy
      | ok r =>
        obtain ⟨more, g1⟩ := r
        rw [h1] at hb
        split
        · rename_i y hy
          rw [hb] at hy
          cases hy
        · rename_i more' g1' hy
          rw [hb] at hy
          obtain ⟨rfl, rfl⟩ := Prod.mk.inj (Except.ok.inj hy)
          simp only
          rw [← List.map_append, ho.normaltest]
          cases h2 : o.normaltest (vals ++ more) with
          | error x => rfl
          | ok p1 =>
            simp only
            have hl := bootstrapMeans_length o l k 100 g h1
            apply ih
            rw [List.length_append]
            simp only at hl
            omega
    · rw [dif_neg (by rwa [List.length_map]), dif_neg hc]
      rfl

theorem sampleUntilNormal_mul (o : Oracle K G) (e : K) (ho : UnitFree e o) (l : List K) (k : K) (nR maxR : ℕ) (alpha : K) (g : G) :
    sampleUntilNormal o (l.map fun x => e * x) k nR maxR alpha g =
      (sampleUntilNormal o l k nR maxR alpha g).map fun r => (r.1.map fun x => e * x, r.2) := by
  unfold sampleUntilNormal
  rw [bootstrapMeans_mul]
  cases h1 : bootstrapMeans o l k nR g with
  | error x => rfl
  | ok r =>
    simp only [Except.map]
    rw [ho.normaltest]
    cases h2 : o.normaltest r.1 with
    | error x => rfl
    | ok p =>
      simp only
      rw [untilNormalLoop_mul o e ho l k alpha maxR _ r.1 p r.2 le_rfl]
      cases h3 : untilNormalLoop o l k alpha maxR r.1 p r.2 with
      | error x => rfl
      | ok q =>
        simp only [Except.map, List.length_map]

/-! ## The observables -/

theorem dSquared_scale (c : K) (axes : List (Fin 3)) (a : Arr3 K) :
    dSquared axes (scaleArr c a) = (dSquared axes a).map fun x => c ^ 2 * x := by
  unfold dSquared scaleArr
  simp only [List.map_flatMap, List.map_map]
  apply List.flatMap_congr
  intro i _
  apply List.map_congr_left
  intro k _
  simp only [Function.comp]
  rw [← sum_map_mul, List.map_map]
  congr 1
  apply List.map_congr_left
  intro x _
  simp only [Function.comp]
  ring

theorem dSquared_nonneg (axes : List (Fin 3)) (a : Arr3 K) : ∀ x ∈ dSquared axes a, 0 ≤ x := by
  intro x hx
  unfold dSquared at hx
  obtain ⟨i, -, hx⟩ := List.mem_flatMap.mp hx
  obtain ⟨k, -, rfl⟩ := List.mem_map.mp hx
  apply List.sum_nonneg
  intro y hy
  obtain ⟨z, -, rfl⟩ := List.mem_map.mp hy
  exact sq_nonneg _

theorem collMotion_scale (c : K) (axes : List (Fin 3)) (a : Arr3 K) :
    collMotion axes (scaleArr c a) = (collMotion axes a).map fun x => c ^ 2 * x := by
  unfold collMotion scaleArr
  simp only [List.map_map]
  apply List.map_congr_left
  intro k _
  simp only [Function.comp]
  rw [← sum_map_mul, List.map_map]
  congr 1
  apply List.map_congr_left
  intro x _
  simp only [Function.comp]
  rw [show (fun i => c * a.get i k x) = (fun y => c * y) ∘ fun i => a.get i k x from rfl, ← List.map_map, sum_map_mul]
  ring

theorem chargeSum_mul (c q' : K) (q : List K) (a : Arr3 K) (k : ℕ) (x : Fin 3) :
    chargeSum (q.map fun y => c * y) (scaleArr q' a) k x = (chargeSum q a k x).map fun y => c * q' * y := by
  unfold chargeSum
  change (if (q.map fun y => c * y).length = a.n0 then
      Except.ok ((List.range a.n0).map fun i => (q.map fun y => c * y).getD i 0 * (q' * a.get i k x)).sum
    else if (q.map fun y => c * y).length = 1 then
      Except.ok ((List.range a.n0).map fun i => (q.map fun y => c * y).getD 0 0 * (q' * a.get i k x)).sum
    else if a.n0 = 1 then Except.ok ((q.map fun y => c * y).map fun y => y * (q' * a.get 0 k x)).sum
    else Except.error PyErr.valueError) = _
  rw [List.length_map]
  split_ifs
  · simp only [Except.map, Except.ok.injEq]
    rw [← sum_map_mul, List.map_map]
    congr 1
    apply List.map_congr_left
    intro i _
    simp only [Function.comp, getD_mul]
    ring
  · simp only [Except.map, Except.ok.injEq]
    rw [← sum_map_mul, List.map_map]
    congr 1
    apply List.map_congr_left
    intro i _
    simp only [Function.comp, getD_mul]
    ring
  · simp only [Except.map, Except.ok.injEq]
    rw [← sum_map_mul, List.map_map, List.map_map]
    congr 1
    apply List.map_congr_left
    intro i _
    simp only [Function.comp]
    ring
  · rfl

theorem mapM_map_ok {α β γ : Type} {f : α → PyM β} {f' : α → PyM γ} {h : β → γ} : ∀ (l : List α), (∀ x ∈ l, f' x = (f x).map h) →
    l.mapM f' = (l.mapM f).map fun r => r.map h := by
  intro l
  induction l with
  | nil => intro _; rfl
  | cons x l ih =>
    intro hf
    rw [List.mapM_cons, List.mapM_cons, hf x List.mem_cons_self, ih fun y hy => hf y (List.mem_cons_of_mem x hy)]
    cases f x with
    | error e => rfl
    | ok y =>
      cases l.mapM f with
      | error e => rfl
      | ok r => rfl

theorem chgMotion_scale (c s : K) (q : List K) (a : Arr3 K) :
    chgMotion (q.map fun y => c * y) (scaleArr s a) = (chgMotion q a).map fun r => r.map fun x => (c * s) ^ 2 * x := by
  unfold chgMotion
  simp only [List.length_map, show (scaleArr s a).n0 = a.n0 from rfl, show (scaleArr s a).n1 = a.n1 from rfl]
  split_ifs
  · apply mapM_map_ok
    intro k _
    rw [mapM_map_ok (h := fun y => c * s * y) (f := fun x => chargeSum q a k x) _ fun x _ => chargeSum_mul c s q a k x]
    cases (List.finRange 3).mapM fun x => chargeSum q a k x with
    | error e => rfl
    | ok v =>
      simp only [Except.map, bind, Except.bind, pure, Except.pure, Except.ok.injEq]
      rw [List.map_map, ← sum_map_mul, List.map_map]
      congr 1
      apply List.map_congr_left
      intro x _
      simp only [Function.comp]
      ring
  · rfl

/-! ## The loop -/

/-- What the scaled quantity has to satisfy. -/
structure Scales (c e : K) (Q Q' : Quantity K) : Prop where
  sample : ∀ a, Q'.sample (scaleArr c a) = (Q.sample a).map fun l => l.map fun x => e * x
  eff : Q'.eff = Q.eff

theorem bootstrapBlock_scale {sq : K → K} (hsq : Homogeneous sq) {t c e : K} (he : 0 < e) {o : Oracle K G} (opt : BootOpts K)
    (ho : opt.bootstrap = true ∨ opt.block = true → UnitFree e o)
    {Q Q' : Quantity K} (hQ : Scales c e Q Q') (nO : List K) (i : ℕ) (a : Arr3 K) (l : List K) (b : Boot K) (g : G) :
    bootstrapBlock sq o opt Q' nO i (scaleArr c a) (l.map fun x => e * x) (rescaled t c e b) g =
      (bootstrapBlock sq o opt Q nO i a l b g).map fun r => (rescaled t c e r.1, r.2) := by
  unfold bootstrapBlock
  by_cases hb : opt.bootstrap = true
  · rw [if_pos hb, if_pos hb, hQ.eff, show (scaleArr c a).n0 = a.n0 from rfl]
    cases pyGet nO i with
    | error x => rfl
    | ok no =>
      simp only [bind, Except.bind]
      cases Q.eff no a.n0 with
      | none => rfl
      | some eff =>
        simp only
        rw [sampleUntilNormal_mul o e (ho (.inl hb))]
        cases sampleUntilNormal o l eff opt.nResamples opt.maxResamples opt.alpha g with
        | error x => rfl
        | ok r =>
          obtain ⟨vals, w, g1⟩ := r
          simp only [Except.map, rescaled, List.map_append, List.map_cons, List.map_nil, npMean_mul, npVar1_mul, npSqrt_mul hsq he]
  · rw [if_neg hb, if_neg hb]
    rfl

theorem varianceBlock_scale {sq : K → K} (hsq : Homogeneous sq) {t c e : K} (he : 0 < e) {o : Oracle K G} (opt : BootOpts K)
    (ho : opt.bootstrap = true ∨ opt.block = true → UnitFree e o)
    {Q Q' : Quantity K} (hQ : Scales c e Q Q') (nO : List K) (i : ℕ) (a : Arr3 K) (l : List K) (b : Boot K) :
    varianceBlock sq o opt Q' nO i (scaleArr c a) (l.map fun x => e * x) (rescaled t c e b) =
      (varianceBlock sq o opt Q nO i a l b).map (rescaled t c e) := by
  unfold varianceBlock
  by_cases hb : opt.block = true
  · rw [if_pos hb, if_pos hb, (ho (.inr hb)).reblock]
    cases o.reblock l with
    | error x => rfl
    | ok r =>
      obtain ⟨mean, var⟩ := r
      simp only [Except.map, bind, Except.bind]
      rw [show (rescaled t c e b).v ++ [some (e ^ 2 * var)] = (b.v ++ [some var]).map (Option.map fun x => e ^ 2 * x) from by
        simp only [rescaled, List.map_append, List.map_cons, List.map_nil, Option.map_some], pyGet_map]
      cases pyGet (b.v ++ [some var]) i with
      | error x => rfl
      | ok vi =>
        simp only [Except.map, rescaled, List.map_append, List.map_cons, List.map_nil, Option.map_some, npSqrt_mul hsq he]
  · rw [if_neg hb, if_neg hb, npMean_mul, hQ.eff, show (scaleArr c a).n0 = a.n0 from rfl]
    cases npMean l with
    | none => rfl
    | some mean =>
      simp only [Option.map_some, bind, Except.bind]
      cases pyGet nO i with
      | error x => rfl
      | ok no =>
        simp only
        rw [npVar1_mul, npDiv_mul, show (rescaled t c e b).v ++ [(npDiv (npVar1 l) (Q.eff no a.n0)).map fun x => e ^ 2 * x] =
            (b.v ++ [npDiv (npVar1 l) (Q.eff no a.n0)]).map (Option.map fun x => e ^ 2 * x) from by
          simp only [rescaled, List.map_append, List.map_cons, List.map_nil], pyGet_map]
        cases pyGet (b.v ++ [npDiv (npVar1 l) (Q.eff no a.n0)]) i with
        | error x => rfl
        | ok vi =>
          simp only [Except.map, rescaled, List.map_append, List.map_cons, List.map_nil, npSqrt_mul hsq he]

theorem observe_scale {sq : K → K} (hsq : Homogeneous sq) {t c e : K} (hc : 0 < c) (he : 0 < e) {o : Oracle K G} (opt : BootOpts K)
    (ho : opt.bootstrap = true ∨ opt.block = true → UnitFree e o)
    {Q Q' : Quantity K} (hQ : Scales c e Q Q') (nO : List K) (b : Boot K) (g : G) (i : ℕ) :
    observe sq o opt Q' nO (rescaled t c e b, g) i = (observe sq o opt Q nO (b, g) i).map fun r => (rescaled t c e r.1, r.2) := by
  unfold observe
  simp only
  rw [show pyGet (rescaled t c e b).displacements i = (pyGet b.displacements i).map (scaleArr c) from pyGet_map _ _ _]
  cases pyGet b.displacements i with
  | error x => rfl
  | ok a =>
    simp only [Except.map, bind, Except.bind]
    rw [hQ.sample]
    cases Q.sample a with
    | error x => rfl
    | ok l =>
      simp only [Except.map, List.length_map]
      by_cases hl : l.length ≤ 1
      · rw [if_pos hl, if_pos hl]
      rw [if_neg hl, if_neg hl, show dSquared (rescaled t c e b).axes (scaleArr c a) = (dSquared b.axes a).map fun x => c ^ 2 * x from dSquared_scale c b.axes a]
      have h1 : ({ rescaled t c e b with euclid := (rescaled t c e b).euclid ++ [((dSquared b.axes a).map fun x => c ^ 2 * x).map sq] } : Boot K) =
          rescaled t c e { b with euclid := b.euclid ++ [(dSquared b.axes a).map sq] } := by
        simp only [rescaled, List.map_append, List.map_cons, List.map_nil, List.map_map]
        congr 3
        apply List.map_congr_left
        intro x hx
        simp only [Function.comp]
        exact hsq c x hc (dSquared_nonneg _ _ x hx)
      dsimp only at h1 ⊢
      rw [h1, bootstrapBlock_scale hsq he opt ho hQ]
      cases bootstrapBlock sq o opt Q nO i a l { b with euclid := b.euclid ++ [(dSquared b.axes a).map sq] } g with
      | error x => rfl
      | ok r =>
        obtain ⟨b2, g2⟩ := r
        simp only [Except.map]
        rw [varianceBlock_scale hsq he opt ho hQ]
        cases varianceBlock sq o opt Q nO i a l b2 with
        | error x => rfl
        | ok b3 =>
          simp only [Except.map]
          rw [show pyGet (rescaled t c e b3).deltaT i = (pyGet b3.deltaT i).map fun x => t * x from pyGet_map _ _ _, C35_ngp_scale _ c hc.ne']
          cases pyGet b3.deltaT i with
          | error x => rfl
          | ok time => simp only [Except.map, rescaled, List.map_append, List.map_cons, List.map_nil]

theorem foldlM_observe_scale {sq : K → K} (hsq : Homogeneous sq) {t c e : K} (hc : 0 < c) (he : 0 < e) {o : Oracle K G} (opt : BootOpts K)
    (ho : opt.bootstrap = true ∨ opt.block = true → UnitFree e o)
    {Q Q' : Quantity K} (hQ : Scales c e Q Q') (nO : List K) : ∀ (l : List ℕ) (b : Boot K) (g : G),
    l.foldlM (observe sq o opt Q' nO) (rescaled t c e b, g) =
      (l.foldlM (observe sq o opt Q nO) (b, g)).map fun r => (rescaled t c e r.1, r.2) := by
  intro l
  induction l with
  | nil => intro b g; rfl
  | cons i l ih =>
    intro b g
    rw [List.foldlM_cons, List.foldlM_cons, observe_scale hsq hc he opt ho hQ]
    cases observe sq o opt Q nO (b, g) i with
    | error x => rfl
    | ok r =>
      simp only [Except.map, bind, Except.bind]
      exact ih r.1 r.2

theorem observeAll_scale {sq : K → K} (hsq : Homogeneous sq) {t c e : K} (hc : 0 < c) (he : 0 < e) {o : Oracle K G} (opt : BootOpts K)
    (ho : opt.bootstrap = true ∨ opt.block = true → UnitFree e o)
    {Q Q' : Quantity K} (hQ : Scales c e Q Q') (nO : List K) (count : ℕ) (b : Boot K) (g : G) :
    observeAll sq o opt Q' nO count (rescaled t c e b) g =
      (observeAll sq o opt Q nO count b g).map fun r => (rescaled t c e r.1, r.2) := by
  unfold observeAll
  rw [foldlM_observe_scale hsq hc he opt ho hQ]
  cases (List.range count).foldlM (observe sq o opt Q nO) (b, g) with
  | error x => rfl
  | ok r =>
    simp only [Except.map, bind, Except.bind, Except.ok.injEq, Prod.mk.injEq, and_true]
    simp only [rescaled, List.length_map]

end Kinisi

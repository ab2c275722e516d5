import Verif.Model.Arrhenius
import Mathlib.Analysis.SpecialFunctions.Exp

/-!
# C66 – C69, C77: Arrhenius and super-Arrhenius relationships
-/

set_option linter.unusedVariables false

namespace Kinisi

/-! ## C66 -/

theorem rEV_pos : 0 < rEV := by unfold rEV; norm_num

/-- **C66, the value** is the Arrhenius expression with Boltzmann's constant `rEV` for every positive temperature. -/
theorem C66_value (T Ea A : ℝ) (hT : 0 < T) : arrhenius T Ea A = some (A * Real.exp (-(Ea / (rEV * T)))) := by
  unfold arrhenius
  rw [if_neg (mul_pos rEV_pos hT).ne']
  congr 3
  ring

example : arrhenius 300 (1 / 2) 10 = some (10 * Real.exp (-(1 / 2 / (rEV * 300)))) := C66_value 300 (1 / 2) 10 (by norm_num)

/-- **C66, the constant** is Boltzmann's constant in eV/K: 8.617333…e-5. -/
theorem C66_constant : 8.61733326e-5 < rEV ∧ rEV < 8.61733327e-5 := by
  unfold rEV
  constructor <;> norm_num

/-- **C66, sign.** A positive prefactor gives a positive rate. -/
theorem C66_pos (T Ea A : ℝ) (hT : 0 < T) (hA : 0 < A) : ∃ D, arrhenius T Ea A = some D ∧ 0 < D :=
  ⟨_, C66_value T Ea A hT, mul_pos hA (Real.exp_pos _)⟩

example : ∃ D, arrhenius 300 (1 / 2) 10 = some D ∧ 0 < D := C66_pos 300 (1 / 2) 10 (by norm_num) (by norm_num)

/-- **C66, bound.** At most the prefactor for a non-negative activation energy. -/
theorem C66_le_prefactor (T Ea A : ℝ) (hT : 0 < T) (hA : 0 < A) (hE : 0 ≤ Ea) : ∃ D, arrhenius T Ea A = some D ∧ D ≤ A := by
  refine ⟨_, C66_value T Ea A hT, ?_⟩
  have h : 0 ≤ Ea / (rEV * T) := div_nonneg hE (mul_pos rEV_pos hT).le
  have : Real.exp (-(Ea / (rEV * T))) ≤ 1 := Real.exp_le_one_iff.mpr (by linarith)
  nlinarith

example : ∃ D, arrhenius 300 (1 / 2) 10 = some D ∧ D ≤ 10 := C66_le_prefactor 300 (1 / 2) 10 (by norm_num) (by norm_num) (by norm_num)

/-- **C66, temperature.** Strictly increasing in the temperature for positive activation energy and prefactor. -/
theorem C66_increasing (T T' Ea A : ℝ) (hT : 0 < T) (hTT : T < T') (hA : 0 < A) (hE : 0 < Ea) :
    ∃ D D', arrhenius T Ea A = some D ∧ arrhenius T' Ea A = some D' ∧ D < D' := by
  refine ⟨_, _, C66_value T Ea A hT, C66_value T' Ea A (hT.trans hTT), ?_⟩
  have h : Ea / (rEV * T') < Ea / (rEV * T) :=
    div_lt_div_of_pos_left hE (mul_pos rEV_pos hT) (mul_lt_mul_of_pos_left hTT rEV_pos)
  exact mul_lt_mul_of_pos_left (Real.exp_lt_exp.mpr (by linarith)) hA

/-- **C66, activation energy.** Strictly decreasing in the activation energy. -/
theorem C66_decreasing (T Ea Ea' A : ℝ) (hT : 0 < T) (hA : 0 < A) (hE : Ea < Ea') :
    ∃ D D', arrhenius T Ea A = some D ∧ arrhenius T Ea' A = some D' ∧ D' < D := by
  refine ⟨_, _, C66_value T Ea A hT, C66_value T Ea' A hT, ?_⟩
  have h : Ea / (rEV * T) < Ea' / (rEV * T) := div_lt_div_of_pos_right hE (mul_pos rEV_pos hT)
  exact mul_lt_mul_of_pos_left (Real.exp_lt_exp.mpr (by linarith)) hA

example : ∃ D D', arrhenius 300 (1 / 4) 10 = some D ∧ arrhenius 300 (1 / 2) 10 = some D' ∧ D' < D :=
  C66_decreasing 300 (1 / 4) (1 / 2) 10 (by norm_num) (by norm_num) (by norm_num)

/-- **C66, linearity.** `ln D` is linear in `1/T` with slope `-Ea/k_B` and intercept `ln A`. -/
theorem C66_log_linear (T Ea A : ℝ) (hT : 0 < T) (hA : 0 < A) :
    ∃ D, arrhenius T Ea A = some D ∧ Real.log D = Real.log A + (-(Ea / rEV)) * (1 / T) := by
  refine ⟨_, C66_value T Ea A hT, ?_⟩
  rw [Real.log_mul hA.ne' (Real.exp_pos _).ne', Real.log_exp]
  have := rEV_pos.ne'
  have := hT.ne'
  field_simp

example : ∃ D, arrhenius 300 (1 / 2) 10 = some D ∧ Real.log D = Real.log 10 + (-(1 / 2 / rEV)) * (1 / 300) :=
  C66_log_linear 300 (1 / 2) 10 (by norm_num) (by norm_num)

/-- **C66, recovering the activation energy** from two temperatures. -/
theorem C66_two_points (T T' Ea A D D' : ℝ) (hT : 0 < T) (hT' : 0 < T') (hne : T ≠ T') (hA : 0 < A)
    (h : arrhenius T Ea A = some D) (h' : arrhenius T' Ea A = some D') :
    Ea = -rEV * (Real.log D - Real.log D') / (1 / T - 1 / T') := by
  obtain ⟨_, e1, e2⟩ := C66_log_linear T Ea A hT hA
  obtain ⟨_, f1, f2⟩ := C66_log_linear T' Ea A hT' hA
  rw [h] at e1
  rw [h'] at f1
  obtain rfl := Option.some.inj e1
  obtain rfl := Option.some.inj f1
  rw [e2, f2]
  have h1 := rEV_pos.ne'
  have h2 : 1 / T - 1 / T' ≠ 0 := by
    intro hz
    apply hne
    have h3 : 1 / T = 1 / T' := by linarith
    rwa [one_div, one_div, inv_inj] at h3
  field_simp
  ring

/-- A concrete case: 300 K and 400 K, 0.5 eV. -/
example : ∃ D D', arrhenius 300 (1 / 2) 10 = some D ∧ arrhenius 400 (1 / 2) 10 = some D' ∧ D < D' :=
  C66_increasing 300 400 (1 / 2) 10 (by norm_num) (by norm_num) (by norm_num) (by norm_num)

/-! ## C67 -/

/-- **C67, shift.** `super_arrhenius` with `T0` is `arrhenius` at `T - T0`. -/
theorem C67_shift (T Ea A T0 : ℝ) : superArrhenius T Ea A T0 = arrhenius (T - T0) Ea A := rfl

/-- **C67, extension.** With `T0 = 0` it is `arrhenius`. -/
theorem C67_zero (T Ea A : ℝ) : superArrhenius T Ea A 0 = arrhenius T Ea A := by
  rw [C67_shift, sub_zero]

/-- **C67, order.** Above `T0` it is positive, at most the prefactor, and strictly increasing in the temperature. -/
theorem C67_above (T T' Ea A T0 : ℝ) (h0 : T0 < T) (hTT : T < T') (hA : 0 < A) (hE : 0 < Ea) :
    ∃ D D', superArrhenius T Ea A T0 = some D ∧ superArrhenius T' Ea A T0 = some D' ∧ 0 < D ∧ D < D' ∧ D' ≤ A := by
  obtain ⟨D, D', h1, h2, h3⟩ := C66_increasing (T - T0) (T' - T0) Ea A (by linarith) (by linarith) hA hE
  obtain ⟨D₁, e1, e2⟩ := C66_pos (T - T0) Ea A (by linarith) hA
  obtain ⟨D₂, f1, f2⟩ := C66_le_prefactor (T' - T0) Ea A (by linarith) hA hE.le
  rw [h1] at e1
  rw [h2] at f1
  obtain rfl := Option.some.inj e1
  obtain rfl := Option.some.inj f1
  exact ⟨D, D', h1, h2, e2, h3, f2⟩

/-- **C67, comparison.** A larger `T0` lowers the rate at every temperature above it. -/
theorem C67_decreasing_T0 (T Ea A T0 T0' : ℝ) (h0 : T0 < T0') (h1 : T0' < T) (hA : 0 < A) (hE : 0 < Ea) :
    ∃ D D', superArrhenius T Ea A T0 = some D ∧ superArrhenius T Ea A T0' = some D' ∧ D' < D := by
  obtain ⟨D, D', h1, h2, h3⟩ := C66_increasing (T - T0') (T - T0) Ea A (by linarith) (by linarith) hA hE
  exact ⟨D', D, h2, h1, h3⟩

/-- A concrete case. -/
example : ∃ D D', superArrhenius 300 (1 / 2) 10 100 = some D ∧ superArrhenius 400 (1 / 2) 10 100 = some D' ∧ 0 < D ∧ D < D' ∧ D' ≤ 10 :=
  C67_above 300 400 (1 / 2) 10 100 (by norm_num) (by norm_num) (by norm_num) (by norm_num)

/-! ## C68 -/

section Bounds
variable {K : Type} [Zero K] [One K]

/-- The temperature that a construction writes into the default list, if it is the first to do so: the first temperature of a construction
without `bounds`. -/
def defaultT0 (c : SuperCall K) : Option K :=
  match c.arg with
  | .default => c.temperature.head?
  | _ => none

/-- The caller's lists are different objects from the default list. -/
def OwnList (c : SuperCall K) : Prop := c.arg ≠ .list 0

theorem fillT0_default_none (h : Heap K) (big : K) (h0 : h 0 = [(0, some 1), (0, some big), (0, none)]) (t : K) (ts : List K) :
    fillT0 h (.list 0) (t :: ts) = (fun r' => if r' = 0 then [(0, some 1), (0, some big), (0, some t)] else h r', .ok ()) := by
  unfold fillT0
  simp [BoundsRef.read, h0]

theorem fillT0_default_empty (h : Heap K) (big : K) (h0 : h 0 = [(0, some 1), (0, some big), (0, none)]) :
    fillT0 h (.list 0) [] = (h, .error .indexError) := by
  unfold fillT0
  simp [BoundsRef.read, h0]

theorem fillT0_default_some (h : Heap K) (big t : K) (h0 : h 0 = [(0, some 1), (0, some big), (0, some t)]) (ts : List K) :
    fillT0 h (.list 0) ts = (h, .ok ()) := by
  unfold fillT0
  simp [BoundsRef.read, h0]

theorem superInit_heap (rel : Bounds K → List K → PyM Unit) (h : Heap K) (arg : BoundsArg K) (temp : List K) :
    (superInit rel h arg temp).1 = (fillT0 h arg.ref temp).1 := by
  unfold superInit
  split
  · rename_i h1 e heq; rw [heq]
  · rename_i h1 heq
    rw [heq]
    split <;> rfl

theorem fillT0_other (h : Heap K) (r : ℕ) (hr : r ≠ 0) (temp : List K) : (fillT0 h (.list r) temp).1 0 = h 0 := by
  unfold fillT0
  split
  · rfl
  · rfl
  · split
    · rfl
    · simp only
      rw [if_neg (by omega)]

theorem fillT0_tuple (h : Heap K) (b : Bounds K) (temp : List K) : (fillT0 h (.tuple b) temp).1 = h := by
  unfold fillT0
  split
  · rfl
  · rfl
  · split <;> rfl

/-- The default list after a history of constructions. -/
theorem default_after (big : K) : ∀ (hist : List (SuperCall K)) (h : Heap K), (∀ c ∈ hist, OwnList c) →
    (h 0 = [(0, some 1), (0, some big), (0, none)] →
      runSuper h hist 0 = [(0, some 1), (0, some big), (0, (hist.filterMap defaultT0).head?)]) ∧
    ∀ t, h 0 = [(0, some 1), (0, some big), (0, some t)] → runSuper h hist 0 = [(0, some 1), (0, some big), (0, some t)] := by
  intro hist
  induction hist with
  | nil => intro h _; exact ⟨fun h0 => h0, fun t h0 => h0⟩
  | cons c cs ih =>
    intro h hown
    have ih' := fun h' => ih h' fun c' hc' => hown c' (by simp [hc'])
    have hstep : runSuper h (c :: cs) = runSuper (fillT0 h c.arg.ref c.temperature).1 cs := by
      rw [runSuper, superInit_heap]
    cases hc : c.arg with
    | default =>
      rw [hc] at hstep
      cases ht : c.temperature with
      | nil =>
        have hd : defaultT0 c = none := by unfold defaultT0; rw [hc, ht]; rfl
        refine ⟨fun h0 => ?_, fun t h0 => ?_⟩
        · rw [hstep, ht]
          simp only [BoundsArg.ref]
          rw [fillT0_default_empty h big h0, List.filterMap_cons, hd]
          exact (ih' h).1 h0
        · rw [hstep]
          simp only [BoundsArg.ref]
          rw [fillT0_default_some h big t h0]
          exact (ih' h).2 t h0
      | cons t ts =>
        have hd : defaultT0 c = some t := by unfold defaultT0; rw [hc, ht]; rfl
        refine ⟨fun h0 => ?_, fun t' h0 => ?_⟩
        · rw [hstep, ht]
          simp only [BoundsArg.ref]
          rw [fillT0_default_none h big h0, List.filterMap_cons, hd]
          exact (ih' _).2 t (by simp)
        · rw [hstep]
          simp only [BoundsArg.ref]
          rw [fillT0_default_some h big t' h0]
          exact (ih' h).2 t' h0
    | list r =>
      have hr : r ≠ 0 := by
        rintro rfl
        exact hown c (by simp) hc
      have hd : defaultT0 c = none := by unfold defaultT0; rw [hc]
      rw [hc] at hstep
      simp only [BoundsArg.ref] at hstep
      have h1 := fillT0_other h r hr c.temperature
      rw [hstep, List.filterMap_cons, hd]
      exact ⟨fun h0 => (ih' _).1 (h1.trans h0), fun t h0 => (ih' _).2 t (h1.trans h0)⟩
    | tuple b =>
      have hd : defaultT0 c = none := by unfold defaultT0; rw [hc]
      rw [hc] at hstep
      simp only [BoundsArg.ref] at hstep
      rw [fillT0_tuple] at hstep
      rw [hstep, List.filterMap_cons, hd]
      exact ih' h

/-- **C68, what happens.** After any history of constructions in the process, a construction without `bounds` gets, as upper bound of `T0`,
the first temperature of the *first* construction without `bounds` in the process — its own first temperature only when it is
the first one itself. -/
theorem C68_history (big : K) (others : Heap K) (hist : List (SuperCall K)) (hown : ∀ c ∈ hist, OwnList c) (c : SuperCall K)
    (hc : c.arg = .default) (b : BoundsRef K) (h' : Heap K)
    (hrun : superInit c.relationship (runSuper (Heap.initial big others) hist) c.arg c.temperature = (h', .ok b)) :
    b.read h' = [(0, some 1), (0, some big), (0, ((hist ++ [c]).filterMap defaultT0).head?)] := by
  have hd := (default_after big (hist ++ [c]) (Heap.initial big others) (by
    intro c' hc'
    rcases List.mem_append.mp hc' with h | h
    · exact hown c' h
    · rw [List.mem_singleton] at h; subst h; unfold OwnList; rw [hc]; intro hh; cases hh)).1 rfl
  have happ : ∀ (l : List (SuperCall K)) (h : Heap K), runSuper h (l ++ [c]) = (superInit c.relationship (runSuper h l) c.arg c.temperature).1 := by
    intro l
    induction l with
    | nil => intro h; rfl
    | cons x xs ih => intro h; exact ih _
  rw [happ, hrun] at hd
  have hb : b = .list 0 := by
    unfold superInit at hrun
    rw [hc] at hrun
    simp only [BoundsArg.ref] at hrun
    split at hrun
    · cases hrun
    · split at hrun
      · cases hrun
      · exact (Except.ok.inj (congrArg Prod.snd hrun)).symm
  rw [hb]
  exact hd

/-- After analyses at 500 K and 700 K (the first with a tuple of bounds) the third, at 300 K, gets the 700 K of the second. -/
example (others : Heap ℚ) (h' : Heap ℚ) (b : BoundsRef ℚ)
    (hrun : superInit (fun _ _ => .ok ()) (runSuper (Heap.initial (10 ^ 20) others)
      [⟨fun _ _ => .ok (), .tuple [(0, some 1), (0, some 5), (0, some 1)], [500, 600]⟩, ⟨fun _ _ => .ok (), .default, [700]⟩])
      .default [300, 400] = (h', .ok b)) : b.read h' = [(0, some 1), (0, some (10 ^ 20)), (0, some 700)] :=
  C68_history (10 ^ 20) others _ (by
    intro c hc
    simp only [List.mem_cons, List.not_mem_nil, or_false] at hc
    rcases hc with rfl | rfl <;> (intro hh; cases hh)) ⟨fun _ _ => .ok (), .default, [300, 400]⟩ rfl b h' hrun

/-- **C68, violated.** The second analysis of a process, at 300 K and above, may put `T0` up to the 500 K of the first analysis. -/
theorem C68_violated (others : Heap ℚ) :
    let rel : Bounds ℚ → List ℚ → PyM Unit := fun _ _ => .ok ()
    let h1 := runSuper (Heap.initial (10 ^ 20) others) [⟨rel, .default, [500, 600]⟩]
    superInit rel h1 .default [300, 400] = (h1, .ok (.list 0)) ∧
      (BoundsRef.list 0).read h1 = [(0, some 1), (0, some (10 ^ 20)), (0, some (500 : ℚ))] := by
  intro rel h1
  have hd : h1 0 = [(0, some 1), (0, some (10 ^ 20)), (0, some (500 : ℚ))] := by
    have := (default_after (10 ^ 20 : ℚ) [⟨rel, .default, [500, 600]⟩] (Heap.initial (10 ^ 20) others) (by
      intro c hc; rw [List.mem_singleton] at hc; subst hc; intro hh; cases hh)).1 rfl
    exact this
  refine ⟨?_, hd⟩
  unfold superInit
  simp only [BoundsArg.ref]
  rw [fillT0_default_some h1 (10 ^ 20) 500 hd]

/-- **C68, the caller's bounds.** A list given by the caller with `None` as upper bound of `T0` is modified: using the same list for a
second analysis carries the temperature of the first over. -/
theorem C68_caller_modified (rel : Bounds K → List K → PyM Unit) (h : Heap K) (r : ℕ) (x y : K × Option K) (l t : K) (ts : List K)
    (hr : h r = [x, y, (l, none)]) :
    (superInit rel h (.list r) (t :: ts)).1 r = [x, y, (0, some t)] := by
  rw [superInit_heap]
  unfold fillT0
  simp [BoundsArg.ref, BoundsRef.read, hr]

example : (superInit (fun _ _ => .ok ()) (fun _ => [(0, some 1), (0, some 5), (10, none)]) (.list 3) [(300 : ℚ), 400]).1 3 =
    [(0, some 1), (0, some 5), (0, some 300)] :=
  C68_caller_modified _ _ 3 (0, some 1) (0, some 5) 10 300 [400] rfl

/-- **C68, what holds.** Bounds given by the caller with an upper bound for `T0` are used as they are, and no list is modified, whatever
happened before. -/
theorem C68_explicit_partial (rel : Bounds K → List K → PyM Unit) (h : Heap K) (arg : BoundsArg K) (temp : List K) (l u : K)
    (hb : (arg.ref.read h)[2]? = some (l, some u)) :
    (superInit rel h arg temp).1 = h ∧ ∀ b, (superInit rel h arg temp).2 = .ok b → b.read h = arg.ref.read h := by
  have hf : fillT0 h arg.ref temp = (h, .ok ()) := by
    unfold fillT0
    rw [hb]
  refine ⟨by rw [superInit_heap, hf], ?_⟩
  intro b hb'
  unfold superInit at hb'
  rw [hf] at hb'
  dsimp only at hb'
  cases hr : rel (arg.ref.read h) temp with
  | error e => rw [hr] at hb'; cases hb'
  | ok w => rw [hr] at hb'; rw [← Except.ok.inj hb']

example (h : Heap ℚ) : (superInit (fun _ _ => .ok ()) h (.tuple [(0, some 1), (0, some 5), (10, some 200)]) [300, 400]).1 = h :=
  (C68_explicit_partial _ h (.tuple [(0, some 1), (0, some 5), (10, some 200)]) [300, 400] 10 200 rfl).1

/-- **C68, what holds.** The first construction without `bounds` in a process uses its own first temperature. -/
theorem C68_first_partial (big : K) (others : Heap K) (hist : List (SuperCall K)) (hown : ∀ c ∈ hist, OwnList c)
    (hfirst : ∀ c ∈ hist, c.arg ≠ .default) (c : SuperCall K) (hc : c.arg = .default) (b : BoundsRef K) (h' : Heap K)
    (hrun : superInit c.relationship (runSuper (Heap.initial big others) hist) c.arg c.temperature = (h', .ok b)) :
    b.read h' = [(0, some 1), (0, some big), (0, c.temperature.head?)] := by
  rw [C68_history big others hist hown c hc b h' hrun, List.filterMap_append]
  have : hist.filterMap defaultT0 = [] := by
    rw [List.filterMap_eq_nil_iff]
    intro x hx
    unfold defaultT0
    cases hxa : x.arg with
    | default => exact absurd hxa (hfirst x hx)
    | list r => rfl
    | tuple b => rfl
  rw [this]
  have hd : defaultT0 c = c.temperature.head? := by unfold defaultT0; rw [hc]
  rw [List.nil_append, List.filterMap_cons, hd]
  cases c.temperature.head? <;> rfl

/-- The first analysis without `bounds`, after one with a tuple. -/
example (others : Heap ℚ) (h' : Heap ℚ) (b : BoundsRef ℚ)
    (hrun : superInit (fun _ _ => .ok ()) (runSuper (Heap.initial (10 ^ 20) others)
      [⟨fun _ _ => .ok (), .tuple [(0, some 1), (0, some 5), (0, some 1)], [500, 600]⟩])
      .default [300, 400] = (h', .ok b)) : b.read h' = [(0, some 1), (0, some (10 ^ 20)), (0, some 300)] :=
  C68_first_partial (10 ^ 20) others _ (by
    intro c hc
    obtain rfl := List.mem_singleton.1 hc
    intro hh; cases hh) (by
    intro c hc
    obtain rfl := List.mem_singleton.1 hc
    intro hh; cases hh) ⟨fun _ _ => .ok (), .default, [300, 400]⟩ rfl b h' hrun

end Bounds

/-! ## C69 -/

/-- **C69 (standard).** The row of `distribution` for a measured temperature is `extrapolate` at that temperature: both succeed or both
raise, and the samples agree one by one. -/
theorem C69_standard (x : List ℝ) (chain : List (List ℝ)) (i : ℕ) (T : ℝ) (hi : x[i]? = some T) :
    (standardDistribution x chain).map (fun d => d[i]?) = (standardExtrapolate chain T).map some := by
  unfold standardDistribution standardExtrapolate
  cases h0 : arrColumn chain 0 with
  | error e => rfl
  | ok a =>
  cases h1 : arrColumn chain 1 with
  | error e => rfl
  | ok b =>
    simp only [bind, Except.bind, Except.map, List.getElem?_map, hi]
    rfl

example : (standardDistribution [200, 300, 400] [[0.5, 10], [0.6, 12]]).map (fun d => d[1]?) =
    (standardExtrapolate [[0.5, 10], [0.6, 12]] 300).map some :=
  C69_standard [200, 300, 400] _ 1 300 rfl

/-- **C69 (super).** -/
theorem C69_super (x : List ℝ) (chain : List (List ℝ)) (i : ℕ) (T : ℝ) (hi : x[i]? = some T) :
    (superDistribution x chain).map (fun d => d[i]?) = (superExtrapolate chain T).map some := by
  unfold superDistribution superExtrapolate
  cases h0 : arrColumn chain 0 with
  | error e => rfl
  | ok a =>
  cases h1 : arrColumn chain 1 with
  | error e => rfl
  | ok b =>
  cases h2 : arrColumn chain 2 with
  | error e => rfl
  | ok c =>
    simp only [bind, Except.bind, Except.map, List.getElem?_map, hi]
    rfl

example : (superDistribution [200, 300, 400] [[0.5, 10, 50], [0.6, 12, 60]]).map (fun d => d[1]?) =
    (superExtrapolate [[0.5, 10, 50], [0.6, 12, 60]] 300).map some :=
  C69_super [200, 300, 400] _ 1 300 rfl

theorem arrColumn_ok (chain : List (List ℝ)) (j : ℕ) (h : ∀ row ∈ chain, j < row.length) :
    arrColumn chain j = .ok (chain.map fun row => row.getD j 0) := by
  unfold arrColumn
  induction chain with
  | nil => rfl
  | cons row chain ih =>
    have hr := h row (by simp)
    rw [List.mapM_cons, ih fun r hr => h r (by simp [hr]), List.getElem?_eq_getElem hr]
    simp [List.getD_eq_getElem?_getD, List.getElem?_eq_getElem hr, pure, Except.pure, bind, Except.bind]

/-- **C69, samples.** Each entry of `extrapolate` is the rate for the parameters of one sample of the chain, in the order of the chain. -/
theorem C69_samples (chain : List (List ℝ)) (hc : ∀ row ∈ chain, row.length = 2) (T : ℝ) :
    standardExtrapolate chain T = .ok (chain.map fun row => arrhenius T (row.getD 0 0) (row.getD 1 0)) := by
  unfold standardExtrapolate
  rw [arrColumn_ok chain 0 (fun row hr => by rw [hc row hr]; omega), arrColumn_ok chain 1 (fun row hr => by rw [hc row hr]; omega)]
  simp only [bind, Except.bind, zip2, List.zip_map', List.map_map]
  rfl

example : standardExtrapolate [[0.5, 10], [0.6, 12]] 300 = .ok [arrhenius 300 0.5 10, arrhenius 300 0.6 12] :=
  C69_samples [[0.5, 10], [0.6, 12]] (by simp) 300

/-- **C69, samples (super).** -/
theorem C69_samples_super (chain : List (List ℝ)) (hc : ∀ row ∈ chain, row.length = 3) (T : ℝ) :
    superExtrapolate chain T = .ok (chain.map fun row => superArrhenius T (row.getD 0 0) (row.getD 1 0) (row.getD 2 0)) := by
  unfold superExtrapolate
  rw [arrColumn_ok chain 0 (fun row hr => by rw [hc row hr]; omega), arrColumn_ok chain 1 (fun row hr => by rw [hc row hr]; omega),
    arrColumn_ok chain 2 (fun row hr => by rw [hc row hr]; omega)]
  simp only [bind, Except.bind, zip3, List.zip_map', List.map_map]
  rfl

/-- Two samples at 300 K, which is the second of three temperatures. -/
example : ([200, 300, 400] : List ℝ)[1]? = some 300 ∧ ∀ row ∈ ([[0.5, 10], [0.6, 12]] : List (List ℝ)), row.length = 2 := by
  simp

/-! ## C77 -/

/-- **C77, what holds.** When the temperatures are ascending, every `T0` strictly inside the default bounds `(0, temperature[0])` gives a
positive rate, at most the prefactor, at every temperature, increasing along the list. -/
theorem C77_ascending_partial (t : ℝ) (ts : List ℝ) (hs : (t :: ts).Pairwise (· < ·)) (T0 Ea A : ℝ) (h1 : T0 < t) (hA : 0 < A)
    (hE : 0 < Ea) : ∃ D : List ℝ, (t :: ts).map (fun T => superArrhenius T Ea A T0) = D.map some ∧ (∀ d ∈ D, 0 < d ∧ d ≤ A) ∧
      D.Pairwise (· < ·) := by
  have hall : ∀ l : List ℝ, (∀ x ∈ l, T0 < x) → l.Pairwise (· < ·) → ∃ D : List ℝ,
      l.map (fun T => superArrhenius T Ea A T0) = D.map some ∧ (∀ d ∈ D, 0 < d ∧ d ≤ A) ∧ D.Pairwise (· < ·) ∧
      ∀ d ∈ D, ∃ x ∈ l, superArrhenius x Ea A T0 = some d := by
    intro l
    induction l with
    | nil => intro _ _; exact ⟨[], by simp⟩
    | cons x l ih =>
      intro hx hp
      obtain ⟨D, d1, d2, d3, d4⟩ := ih (fun y hy => hx y (by simp [hy])) (List.pairwise_cons.mp hp).2
      obtain ⟨d, d', e1, -, e3, e4, e5⟩ := C67_above x (x + 1) Ea A T0 (hx x (by simp)) (by linarith) hA hE
      refine ⟨d :: D, by simp [e1, d1], ?_, ?_, ?_⟩
      · intro z hz
        rcases List.mem_cons.mp hz with rfl | hz
        · exact ⟨e3, by linarith⟩
        · exact d2 z hz
      · refine List.pairwise_cons.mpr ⟨fun z hz => ?_, d3⟩
        obtain ⟨y, hy, hyz⟩ := d4 z hz
        obtain ⟨a, b, f1, f2, -, f4, -⟩ := C67_above x y Ea A T0 (hx x (by simp)) ((List.pairwise_cons.mp hp).1 y hy) hA hE
        rw [e1] at f1
        rw [hyz] at f2
        obtain rfl := Option.some.inj f1
        obtain rfl := Option.some.inj f2
        exact f4
      · intro z hz
        rcases List.mem_cons.mp hz with rfl | hz
        · exact ⟨x, by simp, e1⟩
        · obtain ⟨y, hy, hyz⟩ := d4 z hz
          exact ⟨y, by simp [hy], hyz⟩
  obtain ⟨D, d1, d2, d3, -⟩ := hall (t :: ts) (by
    intro x hx
    rcases List.mem_cons.mp hx with rfl | hx
    · exact h1
    · exact h1.trans ((List.pairwise_cons.mp hs).1 x hx)) hs
  exact ⟨D, d1, d2, d3⟩

example : ∃ D : List ℝ, ([300, 400, 500] : List ℝ).map (fun T => superArrhenius T (1 / 2) 10 100) = D.map some ∧
    (∀ d ∈ D, 0 < d ∧ d ≤ 10) ∧ D.Pairwise (· < ·) :=
  C77_ascending_partial 300 [400, 500] (by simp [List.pairwise_cons]; norm_num) 100 (1 / 2) 10 (by norm_num) (by norm_num) (by norm_num)

/-- **C77, violated.** For the temperatures 500 K, 300 K (descending) the default bounds allow `T0 = 400 K`, and then the rate at 300 K is
above the prefactor (the relationship diverges between the two temperatures). -/
theorem C77_violated : fillT0 (Heap.initial (10 ^ 20 : ℝ) fun _ => []) (.list 0) [500, 300] =
      (fun r => if r = 0 then [(0, some 1), (0, some (10 ^ 20)), (0, some 500)] else [], .ok ()) ∧ (0 : ℝ) < 400 ∧ (400 : ℝ) < 500 ∧
    ∃ D, superArrhenius 300 (1 / 10) 1 400 = some D ∧ 1 < D := by
  refine ⟨?_, by norm_num, by norm_num, ?_⟩
  · rw [fillT0_default_none _ (10 ^ 20) rfl]
    congr 1
    funext r
    by_cases hr : r = 0
    · rw [if_pos hr, if_pos hr]
    · rw [if_neg hr, if_neg hr]; simp [Heap.initial, hr]
  · have hr := rEV_pos
    refine ⟨_, if_neg (by nlinarith), ?_⟩
    rw [one_mul, Real.one_lt_exp_iff]
    have : -1 * (1 / 10 : ℝ) / (rEV * (300 - 400)) = 1 / (1000 * rEV) := by
      field_simp
      norm_num
    rw [this]
    positivity

/-- **C77, the end point.** `T0` equal to the first temperature lies within the (closed) default bounds but gives no rate there. -/
theorem C77_end_point (t Ea A : ℝ) : superArrhenius t Ea A t = none := by
  unfold superArrhenius
  rw [if_pos (by simp)]

example : ([300, 400, 500] : List ℝ).Pairwise (· < ·) ∧ (100 : ℝ) < 300 := by
  constructor
  · simp [List.pairwise_cons]; norm_num
  · norm_num

end Kinisi

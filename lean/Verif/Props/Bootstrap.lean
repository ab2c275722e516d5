import Verif.Lemmas.Bootstrap
import Verif.Props.Totality

/-!
# C84: the bootstrap arrays; C32 for MSTD, MSCD and the blocking method
-/

set_option linter.unusedSectionVars false
set_option linter.unusedVariables false

namespace Kinisi
open Spec
variable {K : Type} [Field K] [LinearOrder K] [IsStrictOrderedRing K] [FloorRing K] {G : Type}

/-! ## C84 -/

/-- **C84, flag.** `bootstrap`, `n_resamples`, `max_resamples`, `alpha` and the state of the random generator have no influence on the
object except for the bootstrap arrays. -/
theorem C84_flag_msd (sq : K → K) (o : Oracle K G) (opt opt' : BootOpts K) (hb : opt'.block = opt.block) (g₁ g₂ g₁' g₂' : G)
    (deltaT : List K) (disp : List (Arr3 K)) (nO : List K) (sub : ℤ) (d : String) (b b' : Boot K)
    (h : msdBootstrap sq o opt g₁ deltaT disp nO sub d = .ok (b, g₁'))
    (h' : msdBootstrap sq o opt' g₂ deltaT disp nO sub d = .ok (b', g₂')) :
    b' = { b with distributions := b'.distributions, nBoot := b'.nBoot, vBoot := b'.vBoot, sBoot := b'.sBoot } := by
  unfold msdBootstrap at h h'
  cases hi : bootInit deltaT disp nO sub d with
  | error e => rw [hi] at h; cases h
  | ok b0 =>
  rw [hi] at h h'
  exact observeAll_flag hb (bootInit_empty hi) h h'

theorem C84_flag_mstd (sq : K → K) (o : Oracle K G) (opt opt' : BootOpts K) (hb : opt'.block = opt.block) (g₁ g₂ g₁' g₂' : G)
    (deltaT : List K) (disp : List (Arr3 K)) (nO : List K) (sub : ℤ) (d : String) (b b' : Boot K)
    (h : mstdBootstrap sq o opt g₁ deltaT disp nO sub d = .ok (b, g₁'))
    (h' : mstdBootstrap sq o opt' g₂ deltaT disp nO sub d = .ok (b', g₂')) :
    b' = { b with distributions := b'.distributions, nBoot := b'.nBoot, vBoot := b'.vBoot, sBoot := b'.sBoot } := by
  unfold mstdBootstrap at h h'
  cases hi : bootInit deltaT disp nO sub d with
  | error e => rw [hi] at h; cases h
  | ok b0 =>
  rw [hi] at h h'
  exact observeAll_flag hb (bootInit_empty hi) h h'

theorem C84_flag_mscd (sq : K → K) (o : Oracle K G) (opt opt' : BootOpts K) (hb : opt'.block = opt.block) (g₁ g₂ g₁' g₂' : G)
    (deltaT : List K) (disp : List (Arr3 K)) (charge : Charge K) (nO : List K) (sub : ℤ) (d : String) (b b' : Boot K)
    (h : mscdBootstrap sq o opt g₁ deltaT disp charge nO sub d = .ok (b, g₁'))
    (h' : mscdBootstrap sq o opt' g₂ deltaT disp charge nO sub d = .ok (b', g₂')) :
    b' = { b with distributions := b'.distributions, nBoot := b'.nBoot, vBoot := b'.vBoot, sBoot := b'.sBoot } := by
  unfold mscdBootstrap at h h'
  cases hi : bootInit deltaT disp nO sub d with
  | error e => rw [hi] at h; cases h
  | ok b0 =>
  rw [hi] at h h'
  exact observeAll_flag hb (bootInit_empty hi) h h'

/-- **C84, no bootstrap.** Without `bootstrap` the four arrays stay empty. -/
theorem C84_off (sq : K → K) (o : Oracle K G) (opt : BootOpts K) (hb : opt.bootstrap = false) (g g' : G)
    (deltaT : List K) (disp : List (Arr3 K)) (charge : Charge K) (nO : List K) (sub : ℤ) (d : String) (b : Boot K)
    (h : msdBootstrap sq o opt g deltaT disp nO sub d = .ok (b, g') ∨ mstdBootstrap sq o opt g deltaT disp nO sub d = .ok (b, g') ∨
      mscdBootstrap sq o opt g deltaT disp charge nO sub d = .ok (b, g')) :
    b.distributions = [] ∧ b.nBoot = [] ∧ b.vBoot = [] ∧ b.sBoot = [] := by
  unfold msdBootstrap mstdBootstrap mscdBootstrap at h
  cases hi : bootInit deltaT disp nO sub d with
  | error e => rw [hi] at h; rcases h with h | h | h <;> cases h
  | ok b0 =>
  rw [hi] at h
  obtain ⟨e1, e2, e3, e4⟩ := bootInit_noBoot hi
  rcases h with h | h | h <;> obtain ⟨f1, f2, f3, f4⟩ := observeAll_noboot hb h <;>
    exact ⟨f1.trans e1, f2.trans e2, f3.trans e3, f4.trans e4⟩

/-- Entry `i` of the bootstrap arrays for a sample consisting of the values of `f` on `S`, with resamples of size `k`. -/
def BootEntry {ι : Type} (S : Finset ι) (f : ι → K) (k : ℕ) (nResamples : ℕ) (i : ℕ) (b : Boot K) : Prop :=
  ∃ (vals : List K) (s : K), b.distributions[i]? = some vals ∧ (∃ m, vals.length = nResamples + 100 * m) ∧
    1 ≤ k ∧ (∀ x ∈ vals, MeanOfDraws S f k x) ∧
    b.nBoot[i]? = some (some (meanOn Finset.univ fun j : Fin vals.length => vals[j])) ∧
    b.vBoot[i]? = some (some (varOn Finset.univ fun j : Fin vals.length => vals[j])) ∧
    b.sBoot[i]? = some (some s) ∧ 0 ≤ s ∧ s ^ 2 = varOn Finset.univ fun j : Fin vals.length => vals[j]

theorem bootEntry_of {ι : Type} {sq : K → K} (hsq : IsSqrt sq) {o : Oracle K G} {opt : BootOpts K} (hR : 2 ≤ opt.nResamples)
    {l vals : List K} {S : Finset ι} {f : ι → K} (hl : Lists l S f) {eff : K} {g1 g2 : G} {w : Bool} {i : ℕ} {b : Boot K}
    (h : sampleUntilNormal o l eff opt.nResamples opt.maxResamples opt.alpha g1 = .ok (vals, w, g2))
    (e1 : b.distributions[i]? = some vals) (e2 : b.nBoot[i]? = some (npMean vals)) (e3 : b.vBoot[i]? = some (npVar1 vals))
    (e4 : b.sBoot[i]? = some (npSqrt sq (npVar1 vals))) : BootEntry S f ⌊eff⌋₊ opt.nResamples i b := by
  obtain ⟨⟨m, hm, -⟩, -⟩ := C37_budget o l eff opt.nResamples opt.maxResamples opt.alpha g1 g2 vals w h
  have h2 : 2 ≤ vals.length := by omega
  have hmeans := sampleUntilNormal_means h
  have h1 : 1 ≤ pyInt eff := (hmeans vals[0] (List.getElem_mem _)).1
  have hs := lists_self vals
  have hv := varOn_nonneg (S := (Finset.univ : Finset (Fin vals.length))) (f := fun j => vals[j]) (by simpa using h2)
  refine ⟨vals, sq (varOn Finset.univ fun j : Fin vals.length => vals[j]), e1, ⟨m, hm⟩, ?_, ?_, ?_, ?_, ?_, (hsq _ hv).1, (hsq _ hv).2⟩
  · rw [← pyInt_floor h1]; omega
  · intro x hx
    rw [← pyInt_floor h1]
    exact meanOfDraws hl (hmeans x hx).2
  · rw [e2, hs.mean h2]
  · rw [e3, hs.var h2]
  · rw [e4, hs.var h2]
    simp only [npSqrt, Option.bind_some, if_neg (not_lt.mpr hv)]

/-- **C84, MSD.** With `bootstrap`, entry `i` of `n_bootstrap`, `v_bootstrap`, `s_bootstrap` is mean, unbiased variance and its root of the
stored distribution of interval `i`, whose values are means of `⌊n_o[i]⌋` squared displacements of that interval drawn with replacement. -/
theorem C84_msd (sq : K → K) (hsq : IsSqrt sq) (o : Oracle K G) (opt : BootOpts K) (hb : opt.bootstrap = true) (hR : 2 ≤ opt.nResamples)
    (g g' : G) (deltaT : List K) (disp : List (Arr3 K)) (nO : List K) (sub : ℤ) (d : String) (b : Boot K)
    (h : msdBootstrap sq o opt g deltaT disp nO sub d = .ok (b, g')) :
    b.distributions.length = b.n.length ∧ b.nBoot.length = b.n.length ∧ b.vBoot.length = b.n.length ∧ b.sBoot.length = b.n.length ∧
    ∃ ds, pyStride sub disp = .ok ds ∧ ∀ i < b.n.length, ∃ a no, ds[i]? = some a ∧ nO[i]? = some no ∧
      BootEntry (pairs a) (sqLen (axesOf d) a) ⌊no⌋₊ opt.nResamples i b := by
  unfold msdBootstrap at h
  cases hi : bootInit deltaT disp nO sub d with
  | error e => rw [hi] at h; cases h
  | ok b0 =>
  rw [hi] at h
  have hr := observeAll_boot hb (bootInit_empty hi) (bootInit_noBoot hi) h
  obtain ⟨ds, dts, sel, d0, h1, h2, h3, h4, rfl⟩ := bootInit_inv hi
  obtain ⟨hn, hA, -⟩ := dimensionSlice_axes h3
  refine ⟨hr.ld, hr.ln, hr.lv, hr.ls, ds, h1, fun i hlt => ?_⟩
  obtain ⟨a, l, no, eff, vals, w, g1, g2, f1, f2, f3, f4, f5, f6, f7, f8, f9⟩ := hr.entry i hlt
  obtain rfl := Except.ok.inj f2
  obtain rfl := Option.some.inj f4
  have hl := lists_dSquared hn a
  rw [hA] at hl
  exact ⟨a, no, f1, f3, bootEntry_of hsq hR hl f5 f6 f7 f8 f9⟩

/-- **C84, MSTD.** The same for the squared summed displacements, with resamples of size `⌊n_o[i] / atoms⌋`. -/
theorem C84_mstd (sq : K → K) (hsq : IsSqrt sq) (o : Oracle K G) (opt : BootOpts K) (hb : opt.bootstrap = true) (hR : 2 ≤ opt.nResamples)
    (g g' : G) (deltaT : List K) (disp : List (Arr3 K)) (nO : List K) (sub : ℤ) (d : String) (b : Boot K)
    (h : mstdBootstrap sq o opt g deltaT disp nO sub d = .ok (b, g')) :
    b.distributions.length = b.n.length ∧ b.nBoot.length = b.n.length ∧ b.vBoot.length = b.n.length ∧ b.sBoot.length = b.n.length ∧
    ∃ ds, pyStride sub disp = .ok ds ∧ ∀ i < b.n.length, ∃ a no, ds[i]? = some a ∧ nO[i]? = some no ∧
      BootEntry (Finset.range a.n1) (sqSum (axesOf d) (fun _ => 1) a) ⌊no / (a.n0 : K)⌋₊ opt.nResamples i b := by
  unfold mstdBootstrap at h
  cases hi : bootInit deltaT disp nO sub d with
  | error e => rw [hi] at h; cases h
  | ok b0 =>
  rw [hi] at h
  have hr := observeAll_boot hb (bootInit_empty hi) (bootInit_noBoot hi) h
  obtain ⟨ds, dts, sel, d0, h1, h2, h3, h4, rfl⟩ := bootInit_inv hi
  obtain ⟨hn, hA, -⟩ := dimensionSlice_axes h3
  refine ⟨hr.ld, hr.ln, hr.lv, hr.ls, ds, h1, fun i hlt => ?_⟩
  obtain ⟨a, l, no, eff, vals, w, g1, g2, f1, f2, f3, f4, f5, f6, f7, f8, f9⟩ := hr.entry i hlt
  obtain rfl := Except.ok.inj f2
  have hl := lists_range a.n1 (sqSum sel.axes.toFinset (fun _ => 1) a)
  dsimp only at f5
  rw [← collMotion_eq hn, hA] at hl
  have heff : eff = no / (a.n0 : K) := by
    simp only [mstdQuantity, npDiv, Option.bind_some] at f4
    split_ifs at f4
    exact (Option.some.inj f4).symm
  subst heff
  exact ⟨a, no, f1, f3, bootEntry_of hsq hR hl f5 f6 f7 f8 f9⟩

theorem Charge.expand_of {charge : Charge K} {N : ℕ} (hc : ∀ l, charge = .array l → l.length = N) :
    (charge.expand N).length = N ∧ ∀ i < N, (charge.expand N).getD i 0 = charge.of i := by
  refine ⟨?_, fun i hi => ?_⟩
  · cases charge with
    | scalar q => simp [Charge.expand]
    | array l => exact hc l rfl
  · cases charge with
    | scalar q => simp [Charge.expand, Charge.of, List.getD_eq_getElem?_getD, hi]
    | array l => rfl

theorem sqSum_congr {A : Finset (Fin 3)} {q q' : ℕ → K} {a : Arr3 K} (h : ∀ i < a.n0, q i = q' i) : sqSum A q a = sqSum A q' a := by
  funext k
  unfold sqSum
  apply Finset.sum_congr rfl
  intro x _
  congr 1
  apply Finset.sum_congr rfl
  intro i hi
  rw [h i (Finset.mem_range.mp hi)]

/-- The sample of `MSCDBootstrap`. -/
theorem mscd_sample {charge : Charge K} {N : ℕ} (hc : ∀ l, charge = .array l → l.length = N) {a : Arr3 K} (ha : a.n0 = N) :
    (mscdQuantity (charge.expand N)).sample a = .ok ((List.range a.n1).map (sqSum Finset.univ charge.of a)) := by
  obtain ⟨h1, h2⟩ := Charge.expand_of hc
  show chgMotion _ a = _
  rw [chgMotion_eq (by rw [h1, ha]), sqSum_congr fun i hi => h2 i (by omega)]

theorem head_atoms {disp ds : List (Arr3 K)} {sub : ℤ} {N : ℕ} (hN : ∀ a ∈ disp, a.n0 = N) (h : pyStride sub disp = .ok ds) (hd : ds ≠ []) :
    (ds.map Arr3.n0).headD 0 = N := by
  cases ds with
  | nil => exact absurd rfl hd
  | cons d1 rest => exact hN d1 (pyStride_mem h (by simp))

/-- **C84, MSCD.** The same for the charge-weighted sum, when each interval has the same number of ions and an array of charges has one
entry per ion. -/
theorem C84_mscd (sq : K → K) (hsq : IsSqrt sq) (o : Oracle K G) (opt : BootOpts K) (hb : opt.bootstrap = true) (hR : 2 ≤ opt.nResamples)
    (g g' : G) (deltaT : List K) (disp : List (Arr3 K)) (charge : Charge K) (nO : List K) (sub : ℤ) (d : String) (b : Boot K) (N : ℕ)
    (hN : ∀ a ∈ disp, a.n0 = N) (hc : ∀ l, charge = .array l → l.length = N)
    (h : mscdBootstrap sq o opt g deltaT disp charge nO sub d = .ok (b, g')) :
    b.distributions.length = b.n.length ∧ b.nBoot.length = b.n.length ∧ b.vBoot.length = b.n.length ∧ b.sBoot.length = b.n.length ∧
    ∃ ds, pyStride sub disp = .ok ds ∧ ∀ i < b.n.length, ∃ a no, ds[i]? = some a ∧ nO[i]? = some no ∧
      BootEntry (Finset.range a.n1) (sqSum Finset.univ charge.of a) ⌊no / (N : K)⌋₊ opt.nResamples i b := by
  unfold mscdBootstrap at h
  cases hi : bootInit deltaT disp nO sub d with
  | error e => rw [hi] at h; cases h
  | ok b0 =>
  rw [hi] at h
  have hr := observeAll_boot hb (bootInit_empty hi) (bootInit_noBoot hi) h
  obtain ⟨ds, dts, sel, d0, h1, h2, h3, h4, rfl⟩ := bootInit_inv hi
  dsimp only at hr
  rw [head_atoms hN h1 (by rintro rfl; cases h4)] at hr
  refine ⟨hr.ld, hr.ln, hr.lv, hr.ls, ds, h1, fun i hlt => ?_⟩
  obtain ⟨a, l, no, eff, vals, w, g1, g2, f1, f2, f3, f4, f5, f6, f7, f8, f9⟩ := hr.entry i hlt
  have ha := hN a (pyStride_mem h1 (List.mem_of_getElem? f1))
  rw [mscd_sample hc ha] at f2
  obtain rfl := Except.ok.inj f2
  have heff : eff = no / (N : K) := by
    simp only [mscdQuantity, npDiv, Option.bind_some, ha] at f4
    split_ifs at f4
    exact (Option.some.inj f4).symm
  subst heff
  exact ⟨a, no, f1, f3, bootEntry_of hsq hR (lists_range _ _) f5 f6 f7 f8 f9⟩

/-- Options of the examples: three resamples. -/
def exBootOpts (K : Type) [Field K] : BootOpts K := { bootstrap := true, nResamples := 3, maxResamples := 3, alpha := 1 }

/-- A generator that counts: the `j`-th index drawn in state `g` is `(g + j) % (m + 1)`. -/
def exCounter (K : Type) [Field K] : Oracle K ℕ :=
  { draws := fun g m n => (fun j => ⟨(g + j) % (m + 1), Nat.mod_lt _ (Nat.succ_pos _)⟩, g + 1), dirichlet := fun g k a => (fun _ => 1, g),
    category := fun g m => (0, g), normaltest := fun _ => .ok none, reblock := fun _ => .ok (5, 7) }

/-- Two observations with squared displacements 5 and 8: one draw each, in turn. -/
example : ((msdBootstrap id (exCounter ℚ) (exBootOpts ℚ) 0 [1, 2] [exArr ℚ 2, exArr ℚ 1] [1, 1] 1 "XY").toOption.map fun r =>
    (r.1.n, r.1.distributions, r.1.nBoot, r.1.vBoot)) = some ([13 / 2], [[5, 8, 5]], [some 6], [some 3]) := by
  decide +kernel

example : ((mstdBootstrap id (exCounter ℚ) (exBootOpts ℚ) 0 [1, 2] [{ exArr ℚ 2 with n0 := 2 }, exArr ℚ 1] [4, 1] 1 "XY").toOption.map fun r =>
    (r.1.n, r.1.distributions, r.1.nBoot, r.1.vBoot)) = some ([26], [[26, 26, 26]], [some 26], [some 0]) := by
  decide +kernel

example : ((mscdBootstrap id (exCounter ℚ) (exBootOpts ℚ) 0 [1, 2] [{ exArr ℚ 2 with n0 := 2 }, { exArr ℚ 1 with n0 := 2 }] (.array [1, 2]) [2, 1] 1
    "XYZ").toOption.map fun r => (r.1.n, r.1.distributions, r.1.nBoot, r.1.vBoot)) = some ([117 / 2], [[45, 72, 45]], [some 54], [some 243]) := by
  decide +kernel

example : IsSqrt Real.sqrt := fun x hx => ⟨Real.sqrt_nonneg x, Real.sq_sqrt hx⟩

/-! ## C32 for MSTD, MSCD and the blocking method -/

theorem variance_entry {ι : Type} {sq : K → K} (hsq : IsSqrt sq) {l : List K} {S : Finset ι} {f : ι → K} (hl : Lists l S f) (h2 : 2 ≤ l.length)
    {eff : K} (he : 0 < eff) {w : Option K} (hw : w = npDiv (npVar1 l) (some eff)) :
    w = some (varOn S f / eff) ∧ 0 ≤ varOn S f / eff ∧
      ∃ s, npSqrt sq w = some s ∧ 0 ≤ s ∧ s ^ 2 = varOn S f / eff := by
  rw [hl.var h2] at hw
  simp only [npDiv, Option.bind_some, if_neg he.ne'] at hw
  have hv : 0 ≤ varOn S f / eff := div_nonneg (varOn_nonneg (by rw [← hl.1]; exact h2)) he.le
  subst hw
  refine ⟨rfl, hv, _, ?_, (hsq _ hv).1, (hsq _ hv).2⟩
  simp only [npSqrt, Option.bind_some, if_neg (not_lt.mpr hv)]

/-- **C32, MSTD.** The variance of entry `i` is the unbiased variance over the observations divided by `n_o[i] / atoms`. -/
theorem C32_variance_mstd (sq : K → K) (hsq : IsSqrt sq) (o : Oracle K G) (opt : BootOpts K) (hblock : opt.block = false) (g g' : G)
    (deltaT : List K) (disp : List (Arr3 K)) (nO : List K) (hno : ∀ x ∈ nO, 0 < x) (hpos : ∀ a ∈ disp, 0 < a.n0) (sub : ℤ) (d : String)
    (b : Boot K) (h : mstdBootstrap sq o opt g deltaT disp nO sub d = .ok (b, g')) :
    b.v.length = b.n.length ∧ b.s.length = b.n.length ∧ b.dt.length = b.n.length ∧ b.ngp.length = b.n.length ∧
    b.euclid.length = b.n.length ∧
    ∃ ds, pyStride sub disp = .ok ds ∧ ∀ i < b.n.length, ∃ a no s, ds[i]? = some a ∧ nO[i]? = some no ∧
      b.v[i]? = some (some (varOn (Finset.range a.n1) (sqSum (axesOf d) (fun _ => 1) a) / (no / (a.n0 : K)))) ∧
      0 ≤ varOn (Finset.range a.n1) (sqSum (axesOf d) (fun _ => 1) a) / (no / (a.n0 : K)) ∧
      b.s[i]? = some (some s) ∧ 0 ≤ s ∧ s ^ 2 = varOn (Finset.range a.n1) (sqSum (axesOf d) (fun _ => 1) a) / (no / (a.n0 : K)) := by
  obtain ⟨b0, P, hb0, hP, hrec, hskip, -⟩ := mstdBootstrap_inv h
  obtain ⟨ds, dts, sel, d0, h1, h2, h3, h4, rfl⟩ := bootInit_inv hb0
  obtain ⟨hn, hA, -⟩ := dimensionSlice_axes h3
  refine ⟨by rw [hrec.lv, hrec.ln], by rw [hrec.ls, hrec.ln], by rw [hrec.ldt, hrec.ln], by rw [hrec.lg, hrec.ln],
    by rw [hrec.le, hrec.ln], ds, h1, ?_⟩
  intro i hi
  rw [hrec.ln] at hi
  obtain ⟨a, l, m, w, t, e1, e2, e3, e4, e5, e6, e7, e8, e9, e10, e11⟩ := hrec.entry i hi
  obtain rfl := Except.ok.inj e2
  dsimp only at e1 e3 e4
  unfold Estimate at e4
  rw [hblock] at e4
  obtain ⟨no, f1, f2, f3⟩ := e4
  have ha : (0 : K) < (a.n0 : K) := by exact_mod_cast hpos a (pyStride_mem h1 (List.mem_of_getElem? e1))
  have hl := lists_range a.n1 (sqSum sel.axes.toFinset (fun _ => 1) a)
  rw [← collMotion_eq hn, hA] at hl
  have he : (mstdQuantity sel.axes).eff no a.n0 = some (no / (a.n0 : K)) := by
    simp only [mstdQuantity, npDiv, Option.bind_some, if_neg ha.ne']
  rw [he] at f3
  obtain ⟨g1, g2, s, g3, g4, g5⟩ := variance_entry hsq hl e3 (div_pos (hno no (List.mem_of_getElem? f1)) ha) f3
  exact ⟨a, no, s, e1, f1, by rw [e7, g1], g2, by rw [e8, g3], g4, g5⟩

/-- **C32, MSCD.** The same for the charge-weighted sum. -/
theorem C32_variance_mscd (sq : K → K) (hsq : IsSqrt sq) (o : Oracle K G) (opt : BootOpts K) (hblock : opt.block = false) (g g' : G)
    (deltaT : List K) (disp : List (Arr3 K)) (charge : Charge K) (nO : List K) (hno : ∀ x ∈ nO, 0 < x) (N : ℕ) (hpos : 0 < N)
    (hN : ∀ a ∈ disp, a.n0 = N) (hc : ∀ l, charge = .array l → l.length = N) (sub : ℤ) (d : String)
    (b : Boot K) (h : mscdBootstrap sq o opt g deltaT disp charge nO sub d = .ok (b, g')) :
    b.v.length = b.n.length ∧ b.s.length = b.n.length ∧ b.dt.length = b.n.length ∧ b.ngp.length = b.n.length ∧
    b.euclid.length = b.n.length ∧
    ∃ ds, pyStride sub disp = .ok ds ∧ ∀ i < b.n.length, ∃ a no s, ds[i]? = some a ∧ nO[i]? = some no ∧
      b.v[i]? = some (some (varOn (Finset.range a.n1) (sqSum Finset.univ charge.of a) / (no / (N : K)))) ∧
      0 ≤ varOn (Finset.range a.n1) (sqSum Finset.univ charge.of a) / (no / (N : K)) ∧
      b.s[i]? = some (some s) ∧ 0 ≤ s ∧ s ^ 2 = varOn (Finset.range a.n1) (sqSum Finset.univ charge.of a) / (no / (N : K)) := by
  obtain ⟨b0, P, hb0, hP, hrec, hskip, -⟩ := mscdBootstrap_inv h
  obtain ⟨ds, dts, sel, d0, h1, h2, h3, h4, rfl⟩ := bootInit_inv hb0
  dsimp only at hrec
  rw [head_atoms hN h1 (by rintro rfl; cases h4)] at hrec
  refine ⟨by rw [hrec.lv, hrec.ln], by rw [hrec.ls, hrec.ln], by rw [hrec.ldt, hrec.ln], by rw [hrec.lg, hrec.ln],
    by rw [hrec.le, hrec.ln], ds, h1, ?_⟩
  intro i hi
  rw [hrec.ln] at hi
  obtain ⟨a, l, m, w, t, e1, e2, e3, e4, e5, e6, e7, e8, e9, e10, e11⟩ := hrec.entry i hi
  have haN := hN a (pyStride_mem h1 (List.mem_of_getElem? e1))
  rw [mscd_sample hc haN] at e2
  obtain rfl := Except.ok.inj e2
  unfold Estimate at e4
  rw [hblock] at e4
  obtain ⟨no, f1, f2, f3⟩ := e4
  have ha : (0 : K) < (N : K) := by exact_mod_cast hpos
  have he : (mscdQuantity (charge.expand N)).eff no a.n0 = some (no / (N : K)) := by
    simp only [mscdQuantity, npDiv, Option.bind_some, haN, if_neg ha.ne']
  rw [he] at f3
  obtain ⟨g1, g2, s, g3, g4, g5⟩ := variance_entry hsq (lists_range _ _) e3 (div_pos (hno no (List.mem_of_getElem? f1)) ha) f3
  exact ⟨a, no, s, e1, f1, by rw [e7, g1], g2, by rw [e8, g3], g4, g5⟩

/-- Observations 5 and 8 of two atoms that move together: (20, 32) has variance 72; `n_o = 4` of two atoms are two observations. -/
example : ((mstdBootstrap id (exCounter ℚ) { alpha := 1 } 0 [1, 2] [{ exArr ℚ 2 with n0 := 2 }, exArr ℚ 1] [4, 1] 1 "XY").toOption.map fun r =>
    (r.1.n, r.1.v)) = some ([26], [some 36]) := by
  decide +kernel

theorem flatMap_range (n m : ℕ) (f : ℕ → ℕ → K) :
    (List.range n).flatMap (fun i => (List.range m).map fun k => f i k) = (List.range (n * m)).map fun j => f (j / m) (j % m) := by
  rcases Nat.eq_zero_or_pos m with rfl | hm
  · simp
  induction n with
  | zero => simp
  | succ n ih =>
    rw [List.range_succ, List.flatMap_append, ih, Nat.succ_mul, List.range_add, List.map_append]
    congr 1
    simp only [List.flatMap_cons, List.flatMap_nil, List.append_nil, List.map_map]
    apply List.map_congr_left
    intro k hk
    have hk := List.mem_range.mp hk
    simp only [Function.comp]
    rw [mul_comm, Nat.mul_add_div hm, Nat.div_eq_of_lt hk, add_zero, Nat.mul_add_mod, Nat.mod_eq_of_lt hk]

/-- **C32, blocking.** With `block`, entry `i` is the pair of mean and squared standard error that pyblock reports for the series of all squared
displacements of the interval: the observations of the first atom, then those of the second, and so on; the standard deviation is its root. -/
theorem C32_block (sq : K → K) (hsq : IsSqrt sq) (o : Oracle K G) (ho : ∀ l m x, o.reblock l = .ok (m, x) → 0 ≤ x) (opt : BootOpts K)
    (hblock : opt.block = true) (g g' : G) (deltaT : List K) (disp : List (Arr3 K)) (nO : List K) (sub : ℤ) (d : String) (b : Boot K)
    (h : msdBootstrap sq o opt g deltaT disp nO sub d = .ok (b, g')) :
    ∃ ds, pyStride sub disp = .ok ds ∧ ∀ i < b.n.length, ∃ a m x s, ds[i]? = some a ∧
      o.reblock ((List.range (a.n0 * a.n1)).map fun j => sqLen (axesOf d) a (j / a.n1, j % a.n1)) = .ok (m, x) ∧
      b.n[i]? = some m ∧ b.v[i]? = some (some x) ∧ b.s[i]? = some (some s) ∧ 0 ≤ s ∧ s ^ 2 = x := by
  obtain ⟨b0, P, hb0, hP, hrec, hskip, -⟩ := msdBootstrap_inv h
  obtain ⟨ds, dts, sel, d0, h1, h2, h3, h4, rfl⟩ := bootInit_inv hb0
  obtain ⟨hn, hA, -⟩ := dimensionSlice_axes h3
  refine ⟨ds, h1, fun i hi => ?_⟩
  rw [hrec.ln] at hi
  obtain ⟨a, l, m, w, t, e1, e2, e3, e4, e5, e6, e7, e8, e9, e10, e11⟩ := hrec.entry i hi
  obtain rfl := Except.ok.inj e2
  unfold Estimate at e4
  rw [if_pos hblock] at e4
  obtain ⟨x, f1, rfl⟩ := e4
  have hx := ho _ _ _ f1
  refine ⟨a, m, x, sq x, e1, ?_, e6, e7, ?_, (hsq x hx).1, (hsq x hx).2⟩
  · rw [← f1]
    congr 1
    simp only [dSquared, flatMap_range]
    apply List.map_congr_left
    intro j _
    rw [sqLen, sum_axes_list hn, hA]
  · rw [e8]
    simp only [npSqrt, Option.bind_some, if_neg (not_lt.mpr hx)]

example : ((msdBootstrap id (exCounter ℚ) { alpha := 1, block := true } 0 [1, 2] [exArr ℚ 2, exArr ℚ 1] [1, 1] 1 "XY").toOption.map fun r =>
    (r.1.n, r.1.v)) = some ([5], [some 7]) := by
  decide +kernel

/-- **C32, blocking, MSTD and MSCD.** The series handed to pyblock has one value per observation. -/
theorem C32_block_total (sq : K → K) (hsq : IsSqrt sq) (o : Oracle K G) (ho : ∀ l m x, o.reblock l = .ok (m, x) → 0 ≤ x) (opt : BootOpts K)
    (hblock : opt.block = true) (g g' : G) (deltaT : List K) (disp : List (Arr3 K)) (charge : Charge K) (nO : List K) (sub : ℤ) (d : String)
    (b : Boot K) (N : ℕ) (hN : ∀ a ∈ disp, a.n0 = N) (hc : ∀ l, charge = .array l → l.length = N) :
    (mstdBootstrap sq o opt g deltaT disp nO sub d = .ok (b, g') →
      ∃ ds, pyStride sub disp = .ok ds ∧ ∀ i < b.n.length, ∃ a m x s, ds[i]? = some a ∧
        o.reblock ((List.range a.n1).map (sqSum (axesOf d) (fun _ => 1) a)) = .ok (m, x) ∧
        b.n[i]? = some m ∧ b.v[i]? = some (some x) ∧ b.s[i]? = some (some s) ∧ 0 ≤ s ∧ s ^ 2 = x) ∧
    (mscdBootstrap sq o opt g deltaT disp charge nO sub d = .ok (b, g') →
      ∃ ds, pyStride sub disp = .ok ds ∧ ∀ i < b.n.length, ∃ a m x s, ds[i]? = some a ∧
        o.reblock ((List.range a.n1).map (sqSum Finset.univ charge.of a)) = .ok (m, x) ∧
        b.n[i]? = some m ∧ b.v[i]? = some (some x) ∧ b.s[i]? = some (some s) ∧ 0 ≤ s ∧ s ^ 2 = x) := by
  constructor
  · intro h
    obtain ⟨b0, P, hb0, hP, hrec, hskip, -⟩ := mstdBootstrap_inv h
    obtain ⟨ds, dts, sel, d0, h1, h2, h3, h4, rfl⟩ := bootInit_inv hb0
    obtain ⟨hn, hA, -⟩ := dimensionSlice_axes h3
    refine ⟨ds, h1, fun i hi => ?_⟩
    rw [hrec.ln] at hi
    obtain ⟨a, l, m, w, t, e1, e2, e3, e4, e5, e6, e7, e8, e9, e10, e11⟩ := hrec.entry i hi
    obtain rfl := Except.ok.inj e2
    unfold Estimate at e4
    rw [if_pos hblock] at e4
    obtain ⟨x, f1, rfl⟩ := e4
    have hx := ho _ _ _ f1
    dsimp only at f1
    rw [collMotion_eq hn, hA] at f1
    refine ⟨a, m, x, sq x, e1, f1, e6, e7, ?_, (hsq x hx).1, (hsq x hx).2⟩
    rw [e8]
    simp only [npSqrt, Option.bind_some, if_neg (not_lt.mpr hx)]
  · intro h
    obtain ⟨b0, P, hb0, hP, hrec, hskip, -⟩ := mscdBootstrap_inv h
    obtain ⟨ds, dts, sel, d0, h1, h2, h3, h4, rfl⟩ := bootInit_inv hb0
    dsimp only at hrec
    rw [head_atoms hN h1 (by rintro rfl; cases h4)] at hrec
    refine ⟨ds, h1, fun i hi => ?_⟩
    rw [hrec.ln] at hi
    obtain ⟨a, l, m, w, t, e1, e2, e3, e4, e5, e6, e7, e8, e9, e10, e11⟩ := hrec.entry i hi
    rw [mscd_sample hc (hN a (pyStride_mem h1 (List.mem_of_getElem? e1)))] at e2
    obtain rfl := Except.ok.inj e2
    unfold Estimate at e4
    rw [if_pos hblock] at e4
    obtain ⟨x, f1, rfl⟩ := e4
    have hx := ho _ _ _ f1
    refine ⟨a, m, x, sq x, e1, f1, e6, e7, ?_, (hsq x hx).1, (hsq x hx).2⟩
    rw [e8]
    simp only [npSqrt, Option.bind_some, if_neg (not_lt.mpr hx)]

/-! ### Runs over the real numbers, where the square root is exact -/

/-- Two atoms, two intervals with three and two observations. -/
noncomputable def exRealBase : Base ℝ := ⟨[1, 2], [{ exArr ℝ 3 with n0 := 2 }, { exArr ℝ 2 with n0 := 2 }], [6, 2], some 1⟩

theorem exRealBase_usable : Usable 3 2 exRealBase :=
  ⟨by simp [exRealBase], rfl, le_rfl, by simp [exRealBase, exArr], by
    intro i h
    have : i = 0 := by
      change i + 1 < 2 at h
      omega
    subst this
    show 2 ≤ 3
    omega, by norm_num [exRealBase]⟩

/-- Eight resamples; blocking only. -/
noncomputable def exRealBoot : UncParams ℝ := { opt := { bootstrap := true, nResamples := 8, alpha := 1 } }
noncomputable def exRealBlock : UncParams ℝ := { opt := { block := true, alpha := 1 } }
noncomputable def exRealPlain : UncParams ℝ := { opt := { alpha := 1 } }

theorem exReal_sqrt : IsSqrt Real.sqrt := fun x hx => ⟨Real.sqrt_nonneg x, Real.sq_sqrt hx⟩

theorem exReal_runs (U : UncParams ℝ) (hU : U = exRealBoot ∨ U = exRealBlock ∨ U = exRealPlain) :
    (∃ b g', msdBootstrap Real.sqrt (exCounter ℝ) U.opt 0 exRealBase.deltaT exRealBase.disp3d exRealBase.nO 1 "xyz" = .ok (b, g')) ∧
    (∃ b g', mstdBootstrap Real.sqrt (exCounter ℝ) U.opt 0 exRealBase.deltaT exRealBase.disp3d exRealBase.nO 1 "xyz" = .ok (b, g')) ∧
    ∃ b g', mscdBootstrap Real.sqrt (exCounter ℝ) U.opt 0 exRealBase.deltaT exRealBase.disp3d (.array [1, 2]) exRealBase.nO 1 "xyz" =
      .ok (b, g') := by
  have hr : StatisticsRun (exCounter ℝ) U.opt := by
    refine ⟨fun h => ⟨?_, fun l _ => ⟨none, rfl⟩⟩, fun _ l _ => ⟨(5, 7), rfl⟩⟩
    rcases hU with rfl | rfl | rfl
    · exact le_refl 8
    · cases h
    · cases h
  have hs : U.sub = 1 := by rcases hU with rfl | rfl | rfl <;> rfl
  have hd : U.dimension = "xyz" := by rcases hU with rfl | rfl | rfl <;> rfl
  obtain ⟨⟨b, g, h, -⟩, ⟨b', g', h', -⟩, h''⟩ := analyzers_ok exRealBase_usable Real.sqrt (exCounter ℝ) 0 U hr (by omega)
    (by rw [hd]; decide +kernel)
  obtain ⟨b'', g'', h'', -⟩ := h'' (.array [1, 2]) fun l e => (Charge.array.inj e) ▸ rfl
  rw [hs, hd] at h h' h''
  exact ⟨⟨b, g, h⟩, ⟨b', g', h'⟩, b'', g'', h''⟩

/-- `C84_msd`, `C84_mstd` and `C84_mscd`; `C84_flag_msd`, `C84_flag_mstd`, `C84_flag_mscd` and `C84_off` for the same data with and without
resampling. -/
example : (∃ b b' : Boot ℝ, b.distributions.length = b.n.length ∧ b'.distributions = [] ∧
      b' = { b with distributions := b'.distributions, nBoot := b'.nBoot, vBoot := b'.vBoot, sBoot := b'.sBoot }) ∧
    (∃ b b' : Boot ℝ, b.distributions.length = b.n.length ∧ b'.distributions = [] ∧
      b' = { b with distributions := b'.distributions, nBoot := b'.nBoot, vBoot := b'.vBoot, sBoot := b'.sBoot }) ∧
    ∃ b b' : Boot ℝ, b.distributions.length = b.n.length ∧ b'.distributions = [] ∧
      b' = { b with distributions := b'.distributions, nBoot := b'.nBoot, vBoot := b'.vBoot, sBoot := b'.sBoot } := by
  obtain ⟨⟨b₁, g₁, h₁⟩, ⟨b₂, g₂, h₂⟩, b₃, g₃, h₃⟩ := exReal_runs exRealBoot (.inl rfl)
  obtain ⟨⟨c₁, k₁, e₁⟩, ⟨c₂, k₂, e₂⟩, c₃, k₃, e₃⟩ := exReal_runs exRealPlain (.inr (.inr rfl))
  have hc : ∀ l, (Charge.array [1, 2] : Charge ℝ) = .array l → l.length = 2 := fun l e => (Charge.array.inj e) ▸ rfl
  refine ⟨⟨b₁, c₁, ?_, ?_, ?_⟩, ⟨b₂, c₂, ?_, ?_, ?_⟩, b₃, c₃, ?_, ?_, ?_⟩
  · exact (C84_msd Real.sqrt exReal_sqrt (exCounter ℝ) exRealBoot.opt rfl (by norm_num [exRealBoot]) 0 g₁ _ _ _ 1 "xyz" b₁ h₁).1
  · exact (C84_off Real.sqrt (exCounter ℝ) exRealPlain.opt rfl 0 k₁ _ _ (.scalar 1) _ 1 "xyz" c₁ (.inl e₁)).1
  · exact C84_flag_msd Real.sqrt (exCounter ℝ) exRealBoot.opt exRealPlain.opt rfl 0 0 g₁ k₁ _ _ _ 1 "xyz" b₁ c₁ h₁ e₁
  · exact (C84_mstd Real.sqrt exReal_sqrt (exCounter ℝ) exRealBoot.opt rfl (by norm_num [exRealBoot]) 0 g₂ _ _ _ 1 "xyz" b₂ h₂).1
  · exact (C84_off Real.sqrt (exCounter ℝ) exRealPlain.opt rfl 0 k₂ _ _ (.scalar 1) _ 1 "xyz" c₂ (.inr (.inl e₂))).1
  · exact C84_flag_mstd Real.sqrt (exCounter ℝ) exRealBoot.opt exRealPlain.opt rfl 0 0 g₂ k₂ _ _ _ 1 "xyz" b₂ c₂ h₂ e₂
  · exact (C84_mscd Real.sqrt exReal_sqrt (exCounter ℝ) exRealBoot.opt rfl (by norm_num [exRealBoot]) 0 g₃ _ _ _ _ 1 "xyz" b₃ 2
      (fun a ha => (exRealBase_usable.atoms a ha).1) hc h₃).1
  · exact (C84_off Real.sqrt (exCounter ℝ) exRealPlain.opt rfl 0 k₃ _ _ _ _ 1 "xyz" c₃ (.inr (.inr e₃))).1
  · exact C84_flag_mscd Real.sqrt (exCounter ℝ) exRealBoot.opt exRealPlain.opt rfl 0 0 g₃ k₃ _ _ _ _ 1 "xyz" b₃ c₃ h₃ e₃

/-- `C32_variance_mstd`, `C32_variance_mscd`, `C32_block` and `C32_block_total`. -/
example : (∃ b : Boot ℝ, b.v.length = b.n.length) ∧ (∃ b : Boot ℝ, b.v.length = b.n.length) ∧
    (∃ b : Boot ℝ, ∀ i < b.n.length, b.v[i]? = some (some 7) ∧ b.n[i]? = some 5) ∧
    ∃ b : Boot ℝ, ∀ i < b.n.length, b.v[i]? = some (some 7) ∧ b.n[i]? = some 5 := by
  obtain ⟨⟨b₁, g₁, h₁⟩, ⟨b₂, g₂, h₂⟩, b₃, g₃, h₃⟩ := exReal_runs exRealPlain (.inr (.inr rfl))
  obtain ⟨⟨c₁, k₁, e₁⟩, ⟨c₂, k₂, e₂⟩, c₃, k₃, e₃⟩ := exReal_runs exRealBlock (.inr (.inl rfl))
  have hc : ∀ l, (Charge.array [1, 2] : Charge ℝ) = .array l → l.length = 2 := fun l e => (Charge.array.inj e) ▸ rfl
  have hno : ∀ x ∈ exRealBase.nO, 0 < x := by norm_num [exRealBase]
  have ho : ∀ l m x, (exCounter ℝ).reblock l = .ok (m, x) → 0 ≤ x := by
    intro l m x h
    obtain rfl := (Prod.mk.inj (Except.ok.inj h)).2
    norm_num
  refine ⟨⟨b₂, ?_⟩, ⟨b₃, ?_⟩, ⟨c₁, fun i hi => ?_⟩, c₂, fun i hi => ?_⟩
  · exact (C32_variance_mstd Real.sqrt exReal_sqrt (exCounter ℝ) exRealPlain.opt rfl 0 g₂ _ _ _ hno
      (fun a ha => (exRealBase_usable.atoms a ha).1 ▸ two_pos) 1 "xyz" b₂ h₂).1
  · exact (C32_variance_mscd Real.sqrt exReal_sqrt (exCounter ℝ) exRealPlain.opt rfl 0 g₃ _ _ _ _ hno 2 two_pos
      (fun a ha => (exRealBase_usable.atoms a ha).1) hc 1 "xyz" b₃ h₃).1
  · obtain ⟨ds, -, h⟩ := C32_block Real.sqrt exReal_sqrt (exCounter ℝ) ho exRealBlock.opt rfl 0 k₁ _ _ _ 1 "xyz" c₁ e₁
    obtain ⟨a, m, x, s, -, f, f1, f2, -⟩ := h i hi
    obtain ⟨rfl, rfl⟩ := Prod.mk.inj (Except.ok.inj f)
    exact ⟨f2, f1⟩
  · obtain ⟨ds, -, h⟩ := (C32_block_total Real.sqrt exReal_sqrt (exCounter ℝ) ho exRealBlock.opt rfl 0 k₂ _ _ (.array [1, 2]) _ 1 "xyz" c₂ 2
      (fun a ha => (exRealBase_usable.atoms a ha).1) hc).1 e₂
    obtain ⟨a, m, x, s, -, f, f1, f2, -⟩ := h i hi
    obtain ⟨rfl, rfl⟩ := Prod.mk.inj (Except.ok.inj f)
    exact ⟨f2, f1⟩

end Kinisi

import Mathlib.Analysis.Real.Sqrt
import Verif.Lemmas.Observables

/-!
# C27–C36: mean squared displacements, their variances and the non-Gaussian parameter
-/

set_option linter.unusedSectionVars false
set_option linter.unusedVariables false

namespace Kinisi
open Spec
variable {K : Type} [Field K] [LinearOrder K] [IsStrictOrderedRing K] [FloorRing K] {G : Type}

/-! ## Example data -/

/-- An oracle for runs without bootstrap and blocking. -/
def exOracle (K : Type) [Field K] : Oracle K Unit :=
  { draws := fun g m n => (fun _ => 0, g), dirichlet := fun g k a => (fun _ => 1, g), category := fun g m => (0, g),
    normaltest := fun _ => .ok none, reblock := fun _ => .error .external }

/-- One atom that moves `k + 1` along x, 2 along y in observation `k` of `n1`. -/
def exArr (K : Type) [Field K] (n1 : ℕ) : Arr3 K := ⟨1, n1, fun _ k => ![(k : K) + 1, 2, 0]⟩

/-- Options without bootstrap and blocking. -/
def exOpts (K : Type) [Field K] : BootOpts K := { alpha := 1 }

/-! ## C27 -/

/-- The accepted dimension strings. -/
def acceptedDims : List String := ["x", "y", "z", "xy", "xz", "yz", "xyz"]

/-- **C27.** For an accepted string (in any letter case) the object uses exactly the axes named in the string, each once, and
`dims` is their number; any other string is a KeyError. -/
theorem C27_dimension (deltaT : List K) (disp : List (Arr3 K)) (nO : List K) (d : String) (hd : disp ≠ []) :
    (d.toLower ∈ acceptedDims → ∃ b, bootInit deltaT disp nO 1 d = .ok b ∧ b.axes.Nodup ∧
      b.axes.toFinset = axesOf d ∧ b.dims = (axesOf d).card ∧ b.dims = b.axes.length) ∧
    (d.toLower ∉ acceptedDims → bootInit deltaT disp nO 1 d = .error .keyError) := by
  obtain ⟨d0, rest, rfl⟩ := List.exists_cons_of_ne_nil hd
  constructor
  · intro h
    have hex : ∃ sel, dimensionSlice d = .ok sel := by
      unfold dimensionSlice
      generalize d.toLower = e at h
      simp only [acceptedDims, List.mem_cons, List.not_mem_nil, or_false] at h
      rcases h with rfl | rfl | rfl | rfl | rfl | rfl | rfl <;> exact ⟨_, rfl⟩
    obtain ⟨sel, hsel⟩ := hex
    obtain ⟨h1, h2, h3⟩ := dimensionSlice_axes hsel
    refine ⟨_, by unfold bootInit; rw [pyStride_one, pyStride_one]; simp only [bind, Except.bind, hsel]; rfl, h1, h2, ?_, h3.symm⟩
    dsimp only
    rw [← h2, List.toFinset_card_of_nodup h1, h3]
  · intro h
    have : dimensionSlice d = .error .keyError := by
      unfold dimensionSlice
      cases hl : dimensionality.lookup d.toLower with
      | none => rfl
      | some s =>
        exfalso
        apply h
        have := lookup_mem hl
        generalize d.toLower = e at this
        unfold dimensionality at this
        simp only [List.mem_cons, List.not_mem_nil, or_false, Prod.mk.injEq] at this
        rcases this with ⟨rfl, -⟩ | ⟨rfl, -⟩ | ⟨rfl, -⟩ | ⟨rfl, -⟩ | ⟨rfl, -⟩ | ⟨rfl, -⟩ | ⟨rfl, -⟩ <;> simp [acceptedDims]
    unfold bootInit
    rw [pyStride_one, pyStride_one]
    simp only [bind, Except.bind, this]

example : axesOf "Xz" = {0, 2} ∧ "Xz".toLower ∈ acceptedDims ∧ "zx".toLower ∉ acceptedDims := by decide +kernel

/-! ## C28 -/

theorem meanOn_pairs (A : Finset (Fin 3)) (a : Arr3 K) : meanOn (pairs a) (sqLen A a) = msd A a := by
  unfold meanOn msd
  rw [pairs_card]
  unfold pairs sqLen
  rw [Finset.sum_product]
  push_cast
  rfl

/-- **C28.** Each entry of the MSD is the mean squared displacement of its interval; entries belong to the intervals before the
first one that has at most one squared displacement, and all intervals from there on have at most one. -/
theorem C28_msd (sq : K → K) (o : Oracle K G) (opt : BootOpts K) (hblock : opt.block = false) (g g' : G) (deltaT : List K)
    (disp : List (Arr3 K)) (nO : List K) (sub : ℤ) (d : String) (b : Boot K)
    (h : msdBootstrap sq o opt g deltaT disp nO sub d = .ok (b, g')) :
    ∃ ds dts, pyStride sub disp = .ok ds ∧ pyStride sub deltaT = .ok dts ∧ b.dt.length = b.n.length ∧
      (∀ i < b.n.length, ∃ a, ds[i]? = some a ∧ 2 ≤ a.n0 * a.n1 ∧ b.n[i]? = some (msd (axesOf d) a) ∧ b.dt[i]? = dts[i]?) ∧
      ∀ i, b.n.length ≤ i → ∀ a, ds[i]? = some a → a.n0 * a.n1 ≤ 1 := by
  obtain ⟨b0, P, hb0, hP, hrec, hskip, -⟩ := msdBootstrap_inv h
  obtain ⟨ds, dts, sel, d0, h1, h2, h3, h4, rfl⟩ := bootInit_inv hb0
  obtain ⟨hn, hA, -⟩ := dimensionSlice_axes h3
  refine ⟨ds, dts, h1, h2, by rw [hrec.ldt, hrec.ln], ?_, ?_⟩
  · intro i hi
    rw [hrec.ln] at hi
    obtain ⟨a, l, m, w, t, e1, e2, e3, e4, e5, e6, e7, e8, e9, e10, e11⟩ := hrec.entry i hi
    obtain rfl := Except.ok.inj e2
    dsimp only at e1 e3 e4 e5
    rw [dSquared_length] at e3
    unfold Estimate at e4
    rw [hblock] at e4
    obtain ⟨no, f1, f2, f3⟩ := e4
    rw [npMean_dSquared hn a e3, hA, meanOn_pairs] at f2
    exact ⟨a, e1, e3, by rw [e6, Option.some.inj f2], by rw [e10, e5]⟩
  · intro i hi a ha
    rw [hrec.ln] at hi
    have hlt : i < ds.length := by
      by_contra hc
      rw [List.getElem?_eq_none (by omega)] at ha
      cases ha
    obtain ⟨a', l, e1, e2, e3⟩ := hskip i hi hlt
    obtain rfl := Except.ok.inj e2
    dsimp only at e1 e3
    rw [e1] at ha
    obtain rfl := Option.some.inj ha
    rwa [dSquared_length] at e3

/-- A list is determined by its entries. -/
theorem list_eq_map {α β : Type} (φ : α → β) (l : List α) (m : List β) (hl : m.length = l.length)
    (h : ∀ i < l.length, ∃ x, l[i]? = some x ∧ m[i]? = some (φ x)) : m = l.map φ := by
  apply List.ext_getElem?
  intro i
  by_cases hi : i < l.length
  · obtain ⟨x, h1, h2⟩ := h i hi
    rw [List.getElem?_map, h1, h2]; rfl
  · rw [List.getElem?_eq_none (by omega), List.getElem?_eq_none (by simp; omega)]

/-- Runs whose displacement arrays are related by a map that keeps the shape. -/
theorem msd_runs (sq : K → K) (o : Oracle K G) (opt : BootOpts K) (hblock : opt.block = false) (g g₁ g₂ : G) (deltaT : List K)
    (disp : List (Arr3 K)) (nO : List K) (sub : ℤ) (d d' : String) (b b' : Boot K) (f : Arr3 K → Arr3 K) (φ : K → K)
    (hs : ∀ a, (f a).n0 = a.n0 ∧ (f a).n1 = a.n1) (hm : ∀ a, msd (axesOf d') (f a) = φ (msd (axesOf d) a))
    (h : msdBootstrap sq o opt g deltaT disp nO sub d = .ok (b, g₁))
    (h' : msdBootstrap sq o opt g deltaT (disp.map f) nO sub d' = .ok (b', g₂)) : b'.n = b.n.map φ := by
  obtain ⟨ds, dts, h1, -, -, e1, e2⟩ := C28_msd sq o opt hblock g g₁ deltaT disp nO sub d b h
  obtain ⟨ds', dts', h1', -, -, e1', e2'⟩ := C28_msd sq o opt hblock g g₂ deltaT (disp.map f) nO sub d' b' h'
  rw [pyStride_map, h1] at h1'
  obtain rfl := Except.ok.inj h1'
  have hlen : b'.n.length = b.n.length := by
    rcases lt_trichotomy b'.n.length b.n.length with hlt | heq | hgt
    · exfalso
      obtain ⟨a, f1, f2, -⟩ := e1 _ hlt
      have := e2' _ (le_refl _) (f a) (by rw [List.getElem?_map, f1]; rfl)
      rw [(hs a).1, (hs a).2] at this
      omega
    · exact heq
    · exfalso
      obtain ⟨a, f1, f2, -⟩ := e1' _ hgt
      rw [List.getElem?_map] at f1
      cases hx : ds[b.n.length]? with
      | none => rw [hx] at f1; cases f1
      | some a0 =>
        rw [hx] at f1
        obtain rfl := Option.some.inj f1
        have := e2 _ (le_refl _) a0 hx
        rw [(hs a0).1, (hs a0).2] at f2
        omega
  apply list_eq_map φ _ _ hlen
  intro i hi
  obtain ⟨a, f1, f2, f3, -⟩ := e1 i hi
  obtain ⟨a', f1', f2', f3', -⟩ := e1' i (by omega)
  rw [List.getElem?_map, f1] at f1'
  obtain rfl := Option.some.inj f1'
  exact ⟨_, f3, by rw [f3', hm]⟩

/-- **C28, non-negativity.** -/
theorem C28_nonneg (sq : K → K) (o : Oracle K G) (opt : BootOpts K) (hblock : opt.block = false) (g g' : G) (deltaT : List K)
    (disp : List (Arr3 K)) (nO : List K) (sub : ℤ) (d : String) (b : Boot K)
    (h : msdBootstrap sq o opt g deltaT disp nO sub d = .ok (b, g')) : ∀ m ∈ b.n, 0 ≤ m := by
  obtain ⟨ds, dts, -, -, -, e1, -⟩ := C28_msd sq o opt hblock g g' deltaT disp nO sub d b h
  intro m hm
  obtain ⟨i, hi, rfl⟩ := List.mem_iff_getElem.mp hm
  obtain ⟨a, -, -, f, -⟩ := e1 i hi
  rw [List.getElem?_eq_getElem hi] at f
  rw [Option.some.inj f]
  unfold msd
  positivity

/-- **C28, scaling.** Multiplying all lengths by `c` multiplies every entry by `c²`. -/
theorem C28_scaling (sq : K → K) (o : Oracle K G) (opt : BootOpts K) (hblock : opt.block = false) (g g₁ g₂ : G) (deltaT : List K)
    (disp : List (Arr3 K)) (nO : List K) (sub : ℤ) (d : String) (b b' : Boot K) (c : K)
    (h : msdBootstrap sq o opt g deltaT disp nO sub d = .ok (b, g₁))
    (h' : msdBootstrap sq o opt g deltaT (disp.map fun a => ⟨a.n0, a.n1, fun i k x => c * a.get i k x⟩) nO sub d = .ok (b', g₂)) :
    b'.n = b.n.map fun m => c ^ 2 * m := by
  apply msd_runs sq o opt hblock g g₁ g₂ deltaT disp nO sub d d b b'
    (fun a => ⟨a.n0, a.n1, fun i k x => c * a.get i k x⟩) _ (fun _ => ⟨rfl, rfl⟩) _ h h'
  intro a
  unfold msd
  dsimp only
  simp only [mul_pow, ← Finset.mul_sum]
  rw [mul_div_assoc]

/-- **C28, order of atoms.** Renumbering the atoms changes nothing. -/
theorem C28_atom_order (sq : K → K) (o : Oracle K G) (opt : BootOpts K) (hblock : opt.block = false) (g g₁ g₂ : G) (deltaT : List K)
    (disp : List (Arr3 K)) (nO : List K) (sub : ℤ) (d : String) (b b' : Boot K) (σ : Arr3 K → ℕ → ℕ)
    (hσ : ∀ a, Set.BijOn (σ a) (Finset.range a.n0) (Finset.range a.n0))
    (h : msdBootstrap sq o opt g deltaT disp nO sub d = .ok (b, g₁))
    (h' : msdBootstrap sq o opt g deltaT (disp.map fun a => ⟨a.n0, a.n1, fun i => a.get (σ a i)⟩) nO sub d = .ok (b', g₂)) :
    b'.n = b.n := by
  have := msd_runs sq o opt hblock g g₁ g₂ deltaT disp nO sub d d b b'
    (fun a => ⟨a.n0, a.n1, fun i => a.get (σ a i)⟩) id (fun _ => ⟨rfl, rfl⟩) ?_ h h'
  · simpa using this
  intro a
  unfold msd
  dsimp only [id]
  congr 1
  exact Finset.sum_bij (fun i _ => σ a i) (fun i hi => by simpa using (hσ a).mapsTo (by simpa using hi))
    (fun i hi j hj hij => (hσ a).injOn (by simpa using hi) (by simpa using hj) hij)
    (fun j hj => by
      obtain ⟨i, hi, rfl⟩ := (hσ a).surjOn (show j ∈ _ by simpa using hj)
      exact ⟨i, by simpa using hi, rfl⟩)
    (fun i _ => rfl)

/-- **C28, additivity.** When the axes of `d` are the disjoint union of those of `d₁` and `d₂`, the MSD along `d` is the sum. -/
theorem C28_additive (sq : K → K) (o : Oracle K G) (opt : BootOpts K) (hblock : opt.block = false) (g g₀ g₁ g₂ : G)
    (deltaT : List K) (disp : List (Arr3 K)) (nO : List K) (sub : ℤ) (d d₁ d₂ : String) (b b₁ b₂ : Boot K)
    (hu : axesOf d = axesOf d₁ ∪ axesOf d₂) (hdisj : Disjoint (axesOf d₁) (axesOf d₂))
    (h : msdBootstrap sq o opt g deltaT disp nO sub d = .ok (b, g₀))
    (h₁ : msdBootstrap sq o opt g deltaT disp nO sub d₁ = .ok (b₁, g₁))
    (h₂ : msdBootstrap sq o opt g deltaT disp nO sub d₂ = .ok (b₂, g₂)) :
    b.n = List.zipWith (fun x y => x + y) b₁.n b₂.n := by
  obtain ⟨ds, dts, h1, -, -, e, e'⟩ := C28_msd sq o opt hblock g g₀ deltaT disp nO sub d b h
  obtain ⟨ds₁, dts₁, h1₁, -, -, e₁, e₁'⟩ := C28_msd sq o opt hblock g g₁ deltaT disp nO sub d₁ b₁ h₁
  obtain ⟨ds₂, dts₂, h1₂, -, -, e₂, e₂'⟩ := C28_msd sq o opt hblock g g₂ deltaT disp nO sub d₂ b₂ h₂
  rw [h1] at h1₁ h1₂
  obtain rfl := Except.ok.inj h1₁
  obtain rfl := Except.ok.inj h1₂
  have len : ∀ x y : Boot K, (∀ i < x.n.length, ∃ a, ds[i]? = some a ∧ 2 ≤ a.n0 * a.n1) →
      (∀ i, y.n.length ≤ i → ∀ a, ds[i]? = some a → a.n0 * a.n1 ≤ 1) → x.n.length ≤ y.n.length := by
    intro x y hx hy
    by_contra hc
    obtain ⟨a, f1, f2⟩ := hx y.n.length (by omega)
    have := hy _ (le_refl _) a f1
    omega
  have w : ∀ {x : Boot K} {d : String} {t : ℕ → Prop}, (∀ i < x.n.length, ∃ a, ds[i]? = some a ∧ 2 ≤ a.n0 * a.n1 ∧
      x.n[i]? = some (msd (axesOf d) a) ∧ t i) → ∀ i < x.n.length, ∃ a, ds[i]? = some a ∧ 2 ≤ a.n0 * a.n1 := by
    intro x d t hx i hi
    obtain ⟨a, f1, f2, -⟩ := hx i hi
    exact ⟨a, f1, f2⟩
  have l1 : b₁.n.length = b.n.length := le_antisymm (len _ _ (w e₁) e') (len _ _ (w e) e₁')
  have l2 : b₂.n.length = b.n.length := le_antisymm (len _ _ (w e₂) e') (len _ _ (w e) e₂')
  apply List.ext_getElem?
  intro i
  rw [List.getElem?_zipWith]
  by_cases hi : i < b.n.length
  · obtain ⟨a, f1, f2, f3, -⟩ := e i hi
    obtain ⟨a₁, f1₁, -, f3₁, -⟩ := e₁ i (by omega)
    obtain ⟨a₂, f1₂, -, f3₂, -⟩ := e₂ i (by omega)
    rw [f1] at f1₁ f1₂
    obtain rfl := Option.some.inj f1₁
    obtain rfl := Option.some.inj f1₂
    rw [f3, f3₁, f3₂]
    simp only [Option.some.injEq]
    unfold msd
    rw [hu, ← add_div, ← Finset.sum_add_distrib]
    congr 1
    apply Finset.sum_congr rfl
    intro i _
    rw [← Finset.sum_add_distrib]
    apply Finset.sum_congr rfl
    intro k _
    rw [Finset.sum_union hdisj]
  · rw [List.getElem?_eq_none (by omega), List.getElem?_eq_none (show b₁.n.length ≤ i by omega)]

/-- Two observations (1, 2, 0), (2, 2, 0) and one observation: MSD (5 + 8) / 2, second interval skipped. -/
example : ∃ b, msdBootstrap id (exOracle ℚ) (exOpts ℚ) () [1, 2] [exArr ℚ 2, exArr ℚ 1] [2, 1] 1 "XY" = .ok (b, ()) ∧
    b.n = [13 / 2] := by
  obtain ⟨b, hb⟩ : ∃ b, msdBootstrap id (exOracle ℚ) (exOpts ℚ) () [1, 2] [exArr ℚ 2, exArr ℚ 1] [2, 1] 1 "XY" = .ok b := by
    have : (msdBootstrap id (exOracle ℚ) (exOpts ℚ) () [1, 2] [exArr ℚ 2, exArr ℚ 1] [2, 1] 1 "XY").toOption.isSome = true := by
      decide +kernel
    revert this
    cases msdBootstrap id (exOracle ℚ) (exOpts ℚ) () [1, 2] [exArr ℚ 2, exArr ℚ 1] [2, 1] 1 "XY" with
    | ok r => intro _; exact ⟨r, rfl⟩
    | error e => intro h; cases h
  refine ⟨b.1, hb, ?_⟩
  have : (msdBootstrap id (exOracle ℚ) (exOpts ℚ) () [1, 2] [exArr ℚ 2, exArr ℚ 1] [2, 1] 1 "XY").toOption.map (fun r => r.1.n) =
      some [13 / 2] := by decide +kernel
  rw [hb] at this
  simpa [Except.toOption] using this

example : axesOf "xyz" = axesOf "xz" ∪ axesOf "Y" ∧ Disjoint (axesOf "xz") (axesOf "Y") := by decide +kernel

/-! ## C29 -/

theorem first_half {disp : List (Arr3 K)} {sub : ℤ} {p : Arr3 K → Prop} (h : ∀ a ∈ disp, p a) :
    ∀ ds, pyStride sub disp = .ok ds → ∀ a ∈ ds.take (ds.length / 2), p a :=
  fun ds hd a ha => h a (pyStride_mem hd (List.mem_of_mem_take ha))

/-- **C29.** When each interval of the first half has at least two observations there are `⌊L/2⌋` entries and each is the mean over observations of
the squared length of the sum of the displacements of all atoms. -/
theorem C29_mstd (sq : K → K) (o : Oracle K G) (opt : BootOpts K) (hblock : opt.block = false) (g g' : G) (deltaT : List K)
    (disp : List (Arr3 K)) (nO : List K) (sub : ℤ) (d : String) (b : Boot K)
    (h2 : ∀ ds, pyStride sub disp = .ok ds → ∀ a ∈ ds.take (ds.length / 2), 2 ≤ a.n1)
    (h : mstdBootstrap sq o opt g deltaT disp nO sub d = .ok (b, g')) :
    ∃ ds dts, pyStride sub disp = .ok ds ∧ pyStride sub deltaT = .ok dts ∧
      b.n = (ds.take (ds.length / 2)).map (mstd (axesOf d)) ∧ b.dt = dts.take (ds.length / 2) := by
  obtain ⟨b0, P, hb0, hP, hrec, hskip, -⟩ := mstdBootstrap_inv h
  obtain ⟨ds, dts, sel, d0, h1, h3, h4, h5, rfl⟩ := bootInit_inv hb0
  obtain ⟨hn, hA, -⟩ := dimensionSlice_axes h4
  have hsub : ∀ i a, i < ds.length / 2 → ds[i]? = some a → 2 ≤ a.n1 := fun i a hi ha => h2 ds h1 a
    (List.mem_of_getElem? (i := i) (by rw [List.getElem?_take, if_pos hi]; exact ha))
  dsimp only at hP hskip
  have hPe : P = ds.length / 2 := by
    by_contra hne
    obtain ⟨a, l, e1, e2, e3⟩ := hskip P (le_refl _) (by omega)
    obtain rfl := Except.ok.inj e2
    rw [collMotion_length] at e3
    have := hsub P a (by omega) e1
    omega
  refine ⟨ds, dts, h1, h3, ?_, ?_⟩
  · apply list_eq_map
    · rw [hrec.ln, List.length_take]; omega
    · intro i hi
      rw [List.length_take] at hi
      obtain ⟨a, l, m, w, t, e1, e2, e3, e4, e5, e6, e7, e8, e9, e10, e11⟩ := hrec.entry i (by omega)
      obtain rfl := Except.ok.inj e2
      dsimp only at e1 e3 e4
      rw [collMotion_length] at e3
      unfold Estimate at e4
      rw [hblock] at e4
      obtain ⟨no, f1, f2, f3⟩ := e4
      rw [collMotion_eq hn, npMean_range _ e3, hA] at f2
      refine ⟨a, by rw [List.getElem?_take, if_pos (by omega)]; exact e1, ?_⟩
      rw [e6, ← Option.some.inj f2]
      simp [meanOn, mstd, sqSum]
  · apply List.ext_getElem?
    intro i
    rw [List.getElem?_take]
    by_cases hi : i < ds.length / 2
    · rw [if_pos hi]
      obtain ⟨a, l, m, w, t, e1, e2, e3, e4, e5, e6, e7, e8, e9, e10, e11⟩ := hrec.entry i (by omega)
      rw [e10]; exact e5.symm
    · rw [if_neg hi, List.getElem?_eq_none (by rw [hrec.ldt]; omega)]


/-- Two atoms with equal displacements (k + 1, 2, 0): the sum is (2k + 2, 4, 0), so MSTD along x is (4 + 16) / 2. -/
example : ∃ b, mstdBootstrap id (exOracle ℚ) (exOpts ℚ) () [1, 2, 3] [{ exArr ℚ 2 with n0 := 2 }, { exArr ℚ 2 with n0 := 2 },
      { exArr ℚ 2 with n0 := 2 }] [4, 2, 2] 1 "x" = .ok (b, ()) ∧ b.n = [10] := by
  have h1 : (mstdBootstrap id (exOracle ℚ) (exOpts ℚ) () [1, 2, 3] [{ exArr ℚ 2 with n0 := 2 }, { exArr ℚ 2 with n0 := 2 },
      { exArr ℚ 2 with n0 := 2 }] [4, 2, 2] 1 "x").toOption.map (fun r => r.1.n) = some [10] := by decide +kernel
  cases h : mstdBootstrap id (exOracle ℚ) (exOpts ℚ) () [1, 2, 3] [{ exArr ℚ 2 with n0 := 2 }, { exArr ℚ 2 with n0 := 2 },
      { exArr ℚ 2 with n0 := 2 }] [4, 2, 2] 1 "x" with
  | error e => rw [h] at h1; cases h1
  | ok r =>
    rw [h] at h1
    exact ⟨r.1, rfl, by simpa [Except.toOption] using h1⟩

/-! ## C30, C31 -/

/-- The charge of ion `i`. -/
def Charge.of (c : Charge K) (i : ℕ) : K :=
  match c with
  | .scalar q => q
  | .array l => l.getD i 0

/-- **C30 / C31, what is computed.** For every dimension the entries are the *three-dimensional* mean squared charge displacements,
when every interval has the same number of ions, an array of charges has one entry per ion, and there are at least two
observations. -/
theorem C31_mscd_ignores_dimension (sq : K → K) (o : Oracle K G) (opt : BootOpts K) (hblock : opt.block = false) (g g' : G)
    (deltaT : List K) (disp : List (Arr3 K)) (charge : Charge K) (nO : List K) (sub : ℤ) (d : String) (b : Boot K) (N : ℕ)
    (h2 : ∀ ds, pyStride sub disp = .ok ds → ∀ a ∈ ds.take (ds.length / 2), 2 ≤ a.n1) (hN : ∀ a ∈ disp, a.n0 = N)
    (hc : ∀ l, charge = .array l → l.length = N)
    (h : mscdBootstrap sq o opt g deltaT disp charge nO sub d = .ok (b, g')) :
    ∃ ds dts, pyStride sub disp = .ok ds ∧ pyStride sub deltaT = .ok dts ∧
      b.n = (ds.take (ds.length / 2)).map (mscd Finset.univ charge.of) ∧ b.dt = dts.take (ds.length / 2) := by
  obtain ⟨b0, P, hb0, hP, hrec, hskip, -⟩ := mscdBootstrap_inv h
  obtain ⟨ds, dts, sel, d0, h1, h3, h4, h5, rfl⟩ := bootInit_inv hb0
  have hsub : ∀ i a, i < ds.length / 2 → ds[i]? = some a → 2 ≤ a.n1 := fun i a hi ha => h2 ds h1 a
    (List.mem_of_getElem? (i := i) (by rw [List.getElem?_take, if_pos hi]; exact ha))
  have hsubN : ∀ a ∈ ds, a.n0 = N := fun a ha => hN a (pyStride_mem h1 ha)
  dsimp only at hP hskip hrec
  have hhead : (ds.map Arr3.n0).headD 0 = N := by
    cases ds with
    | nil => cases h5
    | cons d1 rest => exact hsubN d1 (by simp)
  rw [hhead] at hskip hrec
  have hlen : (charge.expand N).length = N := by
    cases charge with
    | scalar q => simp [Charge.expand]
    | array l => exact hc l rfl
  have hq : ∀ i < N, (charge.expand N).getD i 0 = charge.of i := by
    intro i hi
    cases charge with
    | scalar q => simp [Charge.expand, Charge.of, List.getD_eq_getElem?_getD, hi]
    | array l => rfl
  have hsample : ∀ a ∈ ds, (mscdQuantity (charge.expand N)).sample a =
      .ok ((List.range a.n1).map (sqSum Finset.univ (fun i => (charge.expand N).getD i 0) a)) := by
    intro a ha
    exact chgMotion_eq (by rw [hlen, hsubN a ha])
  have hPe : P = ds.length / 2 := by
    by_contra hne
    obtain ⟨a, l, e1, e2, e3⟩ := hskip P (le_refl _) (by omega)
    have ha := List.mem_of_getElem? e1
    rw [hsample a ha] at e2
    obtain rfl := Except.ok.inj e2
    have := hsub P a (by omega) e1
    simp at e3
    omega
  refine ⟨ds, dts, h1, h3, ?_, ?_⟩
  · apply list_eq_map
    · rw [hrec.ln, List.length_take]; omega
    · intro i hi
      rw [List.length_take] at hi
      obtain ⟨a, l, m, w, t, e1, e2, e3, e4, e5, e6, e7, e8, e9, e10, e11⟩ := hrec.entry i (by omega)
      have ha := List.mem_of_getElem? e1
      rw [hsample a ha] at e2
      obtain rfl := Except.ok.inj e2
      unfold Estimate at e4
      rw [hblock] at e4
      obtain ⟨no, f1, f2, f3⟩ := e4
      rw [npMean_range _ (hsub i a (by omega) e1)] at f2
      refine ⟨a, by rw [List.getElem?_take, if_pos (by omega)]; exact e1, ?_⟩
      rw [e6, ← Option.some.inj f2]
      simp only [meanOn, mscd, sqSum, Finset.card_range, Option.some.injEq]
      congr 1
      apply Finset.sum_congr rfl
      intro k _
      apply Finset.sum_congr rfl
      intro x _
      congr 1
      apply Finset.sum_congr rfl
      intro j hj
      rw [hq j (by have := hsubN a ha; have := Finset.mem_range.mp hj; omega)]
  · apply List.ext_getElem?
    intro i
    rw [List.getElem?_take]
    by_cases hi : i < ds.length / 2
    · rw [if_pos hi]
      obtain ⟨a, l, m, w, t, e1, e2, e3, e4, e5, e6, e7, e8, e9, e10, e11⟩ := hrec.entry i (by omega)
      rw [e10]; exact e5.symm
    · rw [if_neg hi, List.getElem?_eq_none (by rw [hrec.ldt]; omega)]

/-- **C30.** With all three axes, each entry is the mean over observations of the squared length of the charge-weighted sum. -/
theorem C30_mscd (sq : K → K) (o : Oracle K G) (opt : BootOpts K) (hblock : opt.block = false) (g g' : G)
    (deltaT : List K) (disp : List (Arr3 K)) (charge : Charge K) (nO : List K) (sub : ℤ) (d : String) (b : Boot K) (N : ℕ)
    (hd : axesOf d = Finset.univ)
    (h2 : ∀ ds, pyStride sub disp = .ok ds → ∀ a ∈ ds.take (ds.length / 2), 2 ≤ a.n1) (hN : ∀ a ∈ disp, a.n0 = N)
    (hc : ∀ l, charge = .array l → l.length = N)
    (h : mscdBootstrap sq o opt g deltaT disp charge nO sub d = .ok (b, g')) :
    ∃ ds, pyStride sub disp = .ok ds ∧ b.n = (ds.take (ds.length / 2)).map (mscd (axesOf d) charge.of) := by
  obtain ⟨ds, dts, h1, -, h3, -⟩ := C31_mscd_ignores_dimension sq o opt hblock g g' deltaT disp charge nO sub d b N h2 hN hc h
  exact ⟨ds, h1, by rw [hd]; exact h3⟩

/-- **C30, scalar charge.** A scalar charge `q` gives `q²` times the MSTD. -/
theorem C30_scalar_charge (sq : K → K) (o : Oracle K G) (opt : BootOpts K) (hblock : opt.block = false) (g g₁ g₂ : G)
    (deltaT : List K) (disp : List (Arr3 K)) (q : K) (nO : List K) (sub : ℤ) (d : String) (b b' : Boot K) (N : ℕ)
    (hd : axesOf d = Finset.univ) (h2 : ∀ a ∈ disp, 2 ≤ a.n1) (hN : ∀ a ∈ disp, a.n0 = N)
    (h : mstdBootstrap sq o opt g deltaT disp nO sub d = .ok (b, g₁))
    (h' : mscdBootstrap sq o opt g deltaT disp (.scalar q) nO sub d = .ok (b', g₂)) :
    b'.n = b.n.map fun m => q ^ 2 * m := by
  obtain ⟨ds, dts, h1, -, h3, -⟩ := C29_mstd sq o opt hblock g g₁ deltaT disp nO sub d b (first_half h2) h
  obtain ⟨ds', h1', h3'⟩ := C30_mscd sq o opt hblock g g₂ deltaT disp (.scalar q) nO sub d b' N hd (first_half h2) hN (by simp) h'
  rw [h1] at h1'
  obtain rfl := Except.ok.inj h1'
  rw [h3, h3', List.map_map]
  apply List.map_congr_left
  intro a _
  simp only [mscd, mstd, Charge.of, Function.comp, ← Finset.mul_sum, mul_pow, mul_div_assoc]

/-- **C30, neutral ions.** When the charges add up to zero, a displacement common to all ions (it may depend on the interval and the
observation) changes nothing. -/
theorem C30_neutral (sq : K → K) (o : Oracle K G) (opt : BootOpts K) (hblock : opt.block = false) (g g₁ g₂ : G)
    (deltaT : List K) (disp : List (Arr3 K)) (q : List K) (nO : List K) (sub : ℤ) (d : String) (b b' : Boot K)
    (h2 : ∀ a ∈ disp, 2 ≤ a.n1) (hN : ∀ a ∈ disp, a.n0 = q.length) (hq : q.sum = 0) (shift : Arr3 K → ℕ → V3 K)
    (h : mscdBootstrap sq o opt g deltaT disp (.array q) nO sub d = .ok (b, g₁))
    (h' : mscdBootstrap sq o opt g deltaT (disp.map fun a => ⟨a.n0, a.n1, fun i k x => a.get i k x + shift a k x⟩) (.array q)
      nO sub d = .ok (b', g₂)) : b'.n = b.n := by
  obtain ⟨ds, dts, h1, -, h3, -⟩ := C31_mscd_ignores_dimension sq o opt hblock g g₁ deltaT disp (.array q) nO sub d b q.length (first_half h2) hN
    (by simp) h
  obtain ⟨ds', dts', h1', -, h3', -⟩ := C31_mscd_ignores_dimension sq o opt hblock g g₂ deltaT _ (.array q) nO sub d b' q.length
    (first_half (by simpa using h2)) (by simpa using hN) (by simp) h'
  rw [pyStride_map, h1] at h1'
  obtain rfl := Except.ok.inj h1'
  rw [h3, h3', List.length_map, ← List.map_take, List.map_map]
  apply List.map_congr_left
  intro a ha
  have hn : a.n0 = q.length := hN a (pyStride_mem h1 (List.mem_of_mem_take ha))
  have hs : ∑ i ∈ Finset.range a.n0, (Charge.array q).of i = 0 := by
    rw [hn, ← sum_range_list, ← hq]
    congr 1
    apply List.ext_getElem
    · simp
    · intro i h1 h2
      simp only [List.getElem_map, List.getElem_range, Charge.of, List.getD_eq_getElem?_getD]
      rw [List.getElem?_eq_getElem h2]; rfl
  simp only [mscd, Function.comp, mul_add, Finset.sum_add_distrib, ← Finset.sum_mul, hs, zero_mul, add_zero]

/-- **C30, wrong length.** An array whose length is neither the number of ions nor 1 is a ValueError (when there is an interval to
analyse and more than one ion). -/
theorem C30_wrong_length (sq : K → K) (o : Oracle K G) (opt : BootOpts K) (g : G)
    (deltaT : List K) (d0 d1 : Arr3 K) (disp : List (Arr3 K)) (q : List K) (nO : List K) (d : String)
    (hd : d.toLower ∈ acceptedDims) (h0 : q.length ≠ d0.n0) (h1 : q.length ≠ 1) (h2 : d0.n0 ≠ 1) :
    mscdBootstrap sq o opt g deltaT (d0 :: d1 :: disp) (.array q) nO 1 d = .error .valueError := by
  obtain ⟨b, hb, -⟩ := (C27_dimension deltaT (d0 :: d1 :: disp) nO d (by simp)).1 hd
  obtain ⟨ds, dts, sel, d', e1, e2, e3, e4, rfl⟩ := bootInit_inv hb
  rw [pyStride_one] at e1
  obtain rfl := Except.ok.inj e1
  unfold mscdBootstrap
  rw [hb]
  simp only [bind, Except.bind]
  unfold observeAll
  have hcount : (d0 :: d1 :: disp).length / 2 = disp.length / 2 + 1 := by simp; omega
  rw [hcount, List.range_succ_eq_map, List.foldlM_cons]
  have : observe sq o opt (mscdQuantity ((Charge.array q).expand (((d0 :: d1 :: disp).map Arr3.n0).headD 0))) nO
      ({ displacements := d0 :: d1 :: disp, deltaT := dts, maxObs := d'.n1, nO := nO, subSampleDt := 1, dimension := d,
         axes := sel.axes, dims := dimensionDims d }, g) 0 = .error .valueError := by
    unfold observe
    simp only [bind, Except.bind, pyGet, List.getElem?_cons_zero, mscdQuantity, Charge.expand]
    unfold chgMotion
    rw [if_neg (by tauto)]
  rw [this]
  rfl

/-- **C31, what holds.** If nothing moves along the axes that are not asked for (within the arrays' shape), the entries are the mean squared charge
displacements along the axes of the dimension.  Missing for the full property: motion along other axes, see `C31_violated`. -/
theorem C31_planar_partial (sq : K → K) (o : Oracle K G) (opt : BootOpts K) (hblock : opt.block = false) (g g' : G)
    (deltaT : List K) (disp : List (Arr3 K)) (charge : Charge K) (nO : List K) (sub : ℤ) (d : String) (b : Boot K) (N : ℕ)
    (h2 : ∀ ds, pyStride sub disp = .ok ds → ∀ a ∈ ds.take (ds.length / 2), 2 ≤ a.n1) (hN : ∀ a ∈ disp, a.n0 = N)
    (hc : ∀ l, charge = .array l → l.length = N)
    (hflat : ∀ a ∈ disp, ∀ i < a.n0, ∀ k < a.n1, ∀ x, x ∉ axesOf d → a.get i k x = 0)
    (h : mscdBootstrap sq o opt g deltaT disp charge nO sub d = .ok (b, g')) :
    ∃ ds, pyStride sub disp = .ok ds ∧ b.n = (ds.take (ds.length / 2)).map (mscd (axesOf d) charge.of) := by
  obtain ⟨ds, dts, h1, -, h3, -⟩ := C31_mscd_ignores_dimension sq o opt hblock g g' deltaT disp charge nO sub d b N h2 hN hc h
  refine ⟨ds, h1, h3.trans (List.map_congr_left fun a ha => ?_)⟩
  have hm := pyStride_mem h1 (List.mem_of_mem_take ha)
  simp only [mscd, sqSum]
  congr 1
  apply Finset.sum_congr rfl
  intro k hk
  symm
  apply Finset.sum_subset (Finset.subset_univ _)
  intro x _ hx
  rw [Finset.sum_eq_zero fun i hi => ?_, zero_pow two_ne_zero]
  rw [hflat a hm i (Finset.mem_range.mp hi) k (Finset.mem_range.mp hk) x hx, mul_zero]

/-- **C31 is violated**: for an atom that moves along y only, the MSCD "along x" is 4, not 0. -/
theorem C31_violated : ∃ b, mscdBootstrap id (exOracle ℚ) (exOpts ℚ) () [1, 2] [⟨1, 2, fun _ _ => ![0, 2, 0]⟩, ⟨1, 2, fun _ _ => ![0, 2, 0]⟩]
      (.scalar 1) [2, 1] 1 "x" = .ok (b, ()) ∧ b.n = [4] ∧
    mscd (axesOf "x") (fun _ => 1) (⟨1, 2, fun _ _ => ![0, 2, 0]⟩ : Arr3 ℚ) = 0 := by
  have h1 : (mscdBootstrap id (exOracle ℚ) (exOpts ℚ) () [1, 2] [⟨1, 2, fun _ _ => ![0, 2, 0]⟩, ⟨1, 2, fun _ _ => ![0, 2, 0]⟩]
      (.scalar 1) [2, 1] 1 "x").toOption.map (fun r => r.1.n) = some [4] := by decide +kernel
  cases h : mscdBootstrap id (exOracle ℚ) (exOpts ℚ) () [1, 2] [⟨1, 2, fun _ _ => ![0, 2, 0]⟩, ⟨1, 2, fun _ _ => ![0, 2, 0]⟩]
      (.scalar 1) [2, 1] 1 "x" with
  | error e => rw [h] at h1; cases h1
  | ok r =>
    rw [h] at h1
    refine ⟨r.1, rfl, by simpa [Except.toOption] using h1, ?_⟩
    decide +kernel

example : axesOf "XyZ" = Finset.univ := by decide +kernel

/-! ## C32 -/

/-- Variance and standard deviation for any square root. -/
theorem msd_variance (sq : K → K) (o : Oracle K G) (opt : BootOpts K) (hblock : opt.block = false) (g g' : G)
    (deltaT : List K) (disp : List (Arr3 K)) (nO : List K) (hno : ∀ x ∈ nO, 0 < x) (sub : ℤ) (d : String) (b : Boot K)
    (h : msdBootstrap sq o opt g deltaT disp nO sub d = .ok (b, g')) :
    b.v.length = b.n.length ∧ b.s.length = b.n.length ∧ b.dt.length = b.n.length ∧ b.ngp.length = b.n.length ∧
    b.euclid.length = b.n.length ∧
    ∃ ds, pyStride sub disp = .ok ds ∧ ∀ i < b.n.length, ∃ a no, ds[i]? = some a ∧ nO[i]? = some no ∧
      b.v[i]? = some (some (varOn (pairs a) (sqLen (axesOf d) a) / no)) ∧
      0 ≤ varOn (pairs a) (sqLen (axesOf d) a) / no ∧
      b.s[i]? = some (some (sq (varOn (pairs a) (sqLen (axesOf d) a) / no))) := by
  obtain ⟨b0, P, hb0, hP, hrec, hskip, -⟩ := msdBootstrap_inv h
  obtain ⟨ds, dts, sel, d0, h1, h2, h3, h4, rfl⟩ := bootInit_inv hb0
  obtain ⟨hn, hA, -⟩ := dimensionSlice_axes h3
  refine ⟨by rw [hrec.lv, hrec.ln], by rw [hrec.ls, hrec.ln], by rw [hrec.ldt, hrec.ln], by rw [hrec.lg, hrec.ln],
    by rw [hrec.le, hrec.ln], ds, h1, ?_⟩
  intro i hi
  rw [hrec.ln] at hi
  obtain ⟨a, l, m, w, t, e1, e2, e3, e4, e5, e6, e7, e8, e9, e10, e11⟩ := hrec.entry i hi
  obtain rfl := Except.ok.inj e2
  dsimp only at e1 e3 e4
  rw [dSquared_length] at e3
  unfold Estimate at e4
  rw [hblock] at e4
  obtain ⟨no, f1, f2, f3⟩ := e4
  have hpos := hno no (List.mem_of_getElem? f1)
  rw [npVar1_dSquared hn a e3, hA] at f3
  simp only [msdQuantity, npDiv, Option.bind_some, if_neg hpos.ne'] at f3
  have hv : 0 ≤ varOn (pairs a) (sqLen (axesOf d) a) / no := by
    apply div_nonneg _ hpos.le
    unfold varOn
    rw [pairs_card]
    apply div_nonneg (Finset.sum_nonneg fun p _ => sq_nonneg _)
    have : (1 : K) ≤ ((a.n0 * a.n1 : ℕ) : K) := by exact_mod_cast (by omega : 1 ≤ a.n0 * a.n1)
    linarith
  subst f3
  refine ⟨a, no, e1, f1, e7, hv, ?_⟩
  rw [e8]
  simp only [npSqrt, Option.bind_some, if_neg (not_lt.mpr hv)]

/-- **C32.** Variance, standard deviation and lengths.  Entry `i` of every array refers to interval `i`. -/
theorem C32_variance (sq : K → K) (hsq : IsSqrt sq) (o : Oracle K G) (opt : BootOpts K) (hblock : opt.block = false) (g g' : G)
    (deltaT : List K) (disp : List (Arr3 K)) (nO : List K) (hno : ∀ x ∈ nO, 0 < x) (sub : ℤ) (d : String) (b : Boot K)
    (h : msdBootstrap sq o opt g deltaT disp nO sub d = .ok (b, g')) :
    b.v.length = b.n.length ∧ b.s.length = b.n.length ∧ b.dt.length = b.n.length ∧ b.ngp.length = b.n.length ∧
    b.euclid.length = b.n.length ∧
    ∃ ds, pyStride sub disp = .ok ds ∧ ∀ i < b.n.length, ∃ a no s, ds[i]? = some a ∧ nO[i]? = some no ∧
      b.v[i]? = some (some (varOn (pairs a) (sqLen (axesOf d) a) / no)) ∧
      0 ≤ varOn (pairs a) (sqLen (axesOf d) a) / no ∧
      b.s[i]? = some (some s) ∧ 0 ≤ s ∧ s ^ 2 = varOn (pairs a) (sqLen (axesOf d) a) / no := by
  obtain ⟨h1, h2, h3, h4, h5, ds, h6, h7⟩ := msd_variance sq o opt hblock g g' deltaT disp nO hno sub d b h
  refine ⟨h1, h2, h3, h4, h5, ds, h6, fun i hi => ?_⟩
  obtain ⟨a, no, e1, e2, e3, e4, e5⟩ := h7 i hi
  exact ⟨a, no, _, e1, e2, e3, e4, e5, (hsq _ e4).1, (hsq _ e4).2⟩

/-! ## C33 -/

/-- Success of `MSDBootstrap` when the intervals with at most one value come last. -/
theorem msdBootstrap_ok (sq : K → K) (o : Oracle K G) (opt : BootOpts K) (hb : opt.bootstrap = false) (hk : opt.block = false)
    (g : G) (deltaT : List K) (disp : List (Arr3 K)) (nO : List K) (d : String) (hd : d.toLower ∈ acceptedDims)
    (hne : disp ≠ []) (P : ℕ) (hP : ∀ i a, disp[i]? = some a → (2 ≤ a.n0 * a.n1 ↔ i < P)) (hn : P ≤ nO.length)
    (ht : P ≤ deltaT.length) : ∃ b, msdBootstrap sq o opt g deltaT disp nO 1 d = .ok (b, g) := by
  obtain ⟨b, hb0, -⟩ := (C27_dimension deltaT disp nO d hne).1 hd
  obtain ⟨ds, dts, sel, d', e1, e2, e3, e4, he⟩ := bootInit_inv hb0
  rw [pyStride_one] at e1 e2
  obtain rfl := Except.ok.inj e1
  obtain rfl := Except.ok.inj e2
  unfold msdBootstrap
  rw [hb0]
  simp only [bind, Except.bind]
  apply observeAll_ok hb hk (bootInit_empty hb0) hn (by rw [he]; exact ht)
  intro i hi
  rw [he] at hi ⊢
  dsimp only at hi ⊢
  refine ⟨disp[i], dSquared sel.axes disp[i], List.getElem?_eq_getElem hi, rfl, ?_⟩
  rw [dSquared_length]
  exact hP i _ (List.getElem?_eq_getElem hi)

/-- **C33, what holds.** Without resampling and blocking, and with `n_o` and `delta_t` long enough, the analysis succeeds exactly when no
interval with at most one value precedes one with more; by `C28_msd` and `C32_variance` the entries then belong to each other.
Missing for the full property: with a skipped interval in any other place the constructor raises. -/
theorem C33_skipped_partial (sq : K → K) (o : Oracle K G) (opt : BootOpts K) (hb : opt.bootstrap = false)
    (hk : opt.block = false) (g : G) (deltaT : List K) (disp : List (Arr3 K)) (nO : List K) (d : String)
    (hd : d.toLower ∈ acceptedDims) (hne : disp ≠ []) (hn : disp.length ≤ nO.length) (ht : disp.length ≤ deltaT.length) :
    (∃ r, msdBootstrap sq o opt g deltaT disp nO 1 d = .ok r) ↔
      ∀ (i j : ℕ) (a c : Arr3 K), disp[i]? = some a → disp[j]? = some c → i < j → a.n0 * a.n1 ≤ 1 → c.n0 * c.n1 ≤ 1 := by
  constructor
  · rintro ⟨⟨b, g'⟩, h⟩ i j a c ha hc hij hsmall
    obtain ⟨ds, dts, h1, -, -, e1, e2⟩ := C28_msd sq o opt hk g g' deltaT disp nO 1 d b h
    rw [pyStride_one] at h1
    obtain rfl := Except.ok.inj h1
    apply e2 j _ c hc
    by_contra hlt
    obtain ⟨a', f1, f2, -⟩ := e1 i (by omega)
    rw [ha] at f1
    obtain rfl := Option.some.inj f1
    omega
  · intro h
    have hex : ∃ P, P ≤ disp.length ∧ ∀ i a, disp[i]? = some a → (2 ≤ a.n0 * a.n1 ↔ i < P) := by
      clear hne hn ht
      induction disp with
      | nil => exact ⟨0, le_refl _, by simp⟩
      | cons x xs ih =>
        by_cases hx : x.n0 * x.n1 ≤ 1
        · refine ⟨0, by simp, ?_⟩
          intro i a ha
          cases i with
          | zero => simp at ha; subst ha; omega
          | succ i =>
            have := h 0 (i + 1) x a (by simp) ha (by omega) hx
            omega
        · obtain ⟨P, hP, hPP⟩ := ih (fun i j a c h1 h2 h3 h4 => h (i + 1) (j + 1) a c (by simpa using h1) (by simpa using h2)
            (by omega) h4)
          refine ⟨P + 1, by simpa using hP, ?_⟩
          intro i a ha
          cases i with
          | zero => simp at ha; subst ha; omega
          | succ i => rw [hPP i a (by simpa using ha)]; omega
    obtain ⟨P, hP, hPP⟩ := hex
    obtain ⟨b, hb⟩ := msdBootstrap_ok sq o opt hb hk g deltaT disp nO d hd hne P hPP (by omega) (by omega)
    exact ⟨_, hb⟩

/-- **C33 is violated**: a single-observation interval between two others gives an IndexError instead of being skipped. -/
theorem C33_violated : msdBootstrap id (exOracle ℚ) (exOpts ℚ) () [1, 2, 3] [exArr ℚ 2, exArr ℚ 1, exArr ℚ 2] [2, 1, 1] 1 "xyz" =
    .error .indexError := by
  have h1 : (match msdBootstrap id (exOracle ℚ) (exOpts ℚ) () [1, 2, 3] [exArr ℚ 2, exArr ℚ 1, exArr ℚ 2] [2, 1, 1] 1 "xyz" with
    | .error e => decide (e = .indexError) | .ok _ => false) = true := by decide +kernel
  cases h : msdBootstrap id (exOracle ℚ) (exOpts ℚ) () [1, 2, 3] [exArr ℚ 2, exArr ℚ 1, exArr ℚ 2] [2, 1, 1] 1 "xyz" with
  | error e => rw [h] at h1; simp only [decide_eq_true_eq] at h1; rw [h1]
  | ok r => rw [h] at h1; cases h1

/-- `C32_variance` applies to a run over the reals with a skipped last interval. -/
example : IsSqrt Real.sqrt ∧
    ∃ b, msdBootstrap Real.sqrt (exOracle ℝ) (exOpts ℝ) () [1, 2] [exArr ℝ 2, exArr ℝ 1] [2, 1] 1 "xyz" = .ok (b, ()) := by
  refine ⟨fun x hx => ⟨Real.sqrt_nonneg x, Real.sq_sqrt hx⟩, ?_⟩
  apply msdBootstrap_ok _ _ _ rfl rfl _ _ _ _ _ (by decide +kernel) (by simp) 1
  · intro i a h
    match i with
    | 0 => simp at h; subst h; simp [exArr]
    | 1 => simp at h; subst h; simp [exArr]
    | n + 2 => simp at h
  · simp
  · simp

/-! ## C34 -/

/-- **C34, what holds.** `sub_sample_dt = k` keeps the entries 0, k, 2k, … of `dt`, of the MSD and of the non-Gaussian parameter.
Missing: the same for the variances, see `C34_violated`. -/
theorem C34_sub_sample_partial (sq : K → K) (o : Oracle K G) (opt : BootOpts K) (hblock : opt.block = false) (g g₁ g₂ : G)
    (deltaT : List K) (disp : List (Arr3 K)) (nO : List K) (k : ℕ) (hk : 0 < k) (d : String) (b b' : Boot K)
    (h : msdBootstrap sq o opt g deltaT disp nO 1 d = .ok (b, g₁))
    (h' : msdBootstrap sq o opt g deltaT disp nO k d = .ok (b', g₂)) (i : ℕ) :
    b'.n[i]? = b.n[k * i]? ∧ b'.dt[i]? = b.dt[k * i]? ∧ b'.ngp[i]? = b.ngp[k * i]? := by
  have hstr : ∀ {α : Type} (l : List α), pyStride (k : ℤ) l = .ok (stride k l) := by
    intro α l
    unfold pyStride
    rw [if_neg (by omega), if_pos (by omega)]
    simp
  obtain ⟨b0, P, hb0, hP, hrec, hskip, -⟩ := msdBootstrap_inv h
  obtain ⟨b0', P', hb0', hP', hrec', hskip', -⟩ := msdBootstrap_inv h'
  obtain ⟨ds, dts, sel, d0, h1, h2, h3, h4, rfl⟩ := bootInit_inv hb0
  obtain ⟨ds', dts', sel', d0', h1', h2', h3', h4', rfl⟩ := bootInit_inv hb0'
  rw [pyStride_one] at h1 h2
  obtain rfl := Except.ok.inj h1
  obtain rfl := Except.ok.inj h2
  rw [hstr] at h1' h2'
  obtain rfl := Except.ok.inj h1'
  obtain rfl := Except.ok.inj h2'
  rw [h3] at h3'
  obtain rfl := Except.ok.inj h3'
  dsimp only at hP hP' hskip hskip'
  have hiff : i < P' ↔ k * i < P := by
    constructor
    · intro hi
      obtain ⟨a, l, m, w, t, e1, e2, e3, -⟩ := hrec'.entry i hi
      dsimp only at e1
      rw [stride_getElem? k hk] at e1
      by_contra hc
      have hlt : k * i < disp.length := by
        by_contra hc'
        rw [List.getElem?_eq_none (by omega)] at e1
        cases e1
      obtain ⟨a', l', f1, f2, f3⟩ := hskip _ (by omega) hlt
      dsimp only at f1
      rw [e1] at f1
      obtain rfl := Option.some.inj f1
      rw [e2] at f2
      obtain rfl := Except.ok.inj f2
      omega
    · intro hi
      obtain ⟨a, l, m, w, t, e1, e2, e3, -⟩ := hrec.entry _ hi
      dsimp only at e1
      rw [← stride_getElem? k hk] at e1
      by_contra hc
      have hlt : i < (stride k disp).length := by
        by_contra hc'
        rw [List.getElem?_eq_none (by omega)] at e1
        cases e1
      obtain ⟨a', l', f1, f2, f3⟩ := hskip' i (by omega) hlt
      dsimp only at f1
      rw [e1] at f1
      obtain rfl := Option.some.inj f1
      rw [e2] at f2
      obtain rfl := Except.ok.inj f2
      omega
  by_cases hi : i < P'
  · obtain ⟨a, l, m, w, t, e1, e2, e3, e4, e5, e6, e7, e8, e9, e10, e11⟩ := hrec.entry _ (hiff.mp hi)
    obtain ⟨a', l', m', w', t', f1, f2, f3, f4, f5, f6, f7, f8, f9, f10, f11⟩ := hrec'.entry i hi
    dsimp only at e1 e5 f1 f5 e9 f9
    rw [stride_getElem? k hk] at f1 f5
    rw [e1] at f1
    obtain rfl := Option.some.inj f1
    rw [e5] at f5
    obtain rfl := Option.some.inj f5
    rw [e2] at f2
    obtain rfl := Except.ok.inj f2
    unfold Estimate at e4 f4
    rw [hblock] at e4 f4
    obtain ⟨-, -, e4, -⟩ := e4
    obtain ⟨-, -, f4, -⟩ := f4
    rw [e4] at f4
    obtain rfl := Option.some.inj f4
    exact ⟨by rw [e6, f6], by rw [e10, f10], by rw [e9, f9]⟩
  · have hi' : ¬ k * i < P := fun hc => hi (hiff.mpr hc)
    rw [List.getElem?_eq_none (by rw [hrec'.ln]; omega), List.getElem?_eq_none (by rw [hrec.ln]; omega),
      List.getElem?_eq_none (by rw [hrec'.ldt]; omega), List.getElem?_eq_none (by rw [hrec.ldt]; omega),
      List.getElem?_eq_none (by rw [hrec'.lg]; omega), List.getElem?_eq_none (by rw [hrec.lg]; omega)]
    exact ⟨rfl, rfl, rfl⟩

/-- **C34, what holds (MSTD and MSCD).** The entries are those with index 0, k, 2k, … of the full analysis; as only the first half of the intervals that
are left is analysed, there are about half as many as in the full analysis.  Missing: the variances, as for the MSD. -/
theorem C34_total_partial (sq : K → K) (o : Oracle K G) (opt : BootOpts K) (hblock : opt.block = false) (g g₁ g₂ : G)
    (deltaT : List K) (disp : List (Arr3 K)) (charge : Charge K) (nO : List K) (k : ℕ) (hk : 0 < k) (d : String) (b b' : Boot K) (N : ℕ) (h2 : ∀ a ∈ disp, 2 ≤ a.n1)
    (hN : ∀ a ∈ disp, a.n0 = N) (hc : ∀ l, charge = .array l → l.length = N)
    (h : mstdBootstrap sq o opt g deltaT disp nO 1 d = .ok (b, g₁) ∧ mstdBootstrap sq o opt g deltaT disp nO k d = .ok (b', g₂) ∨
      mscdBootstrap sq o opt g deltaT disp charge nO 1 d = .ok (b, g₁) ∧ mscdBootstrap sq o opt g deltaT disp charge nO k d = .ok (b', g₂)) :
    b'.n.length = (disp.length + k - 1) / k / 2 ∧ ∀ i < b'.n.length, ∃ m, b'.n[i]? = some m ∧ b.n[k * i]? = some m ∧ b'.dt[i]? = b.dt[k * i]? := by
  have hstr : ∀ {α : Type} (l : List α), pyStride (k : ℤ) l = .ok (stride k l) := by
    intro α l
    unfold pyStride
    rw [if_neg (by omega), if_pos (by omega)]
    simp
  have key : ∀ f : Arr3 K → K, b.n = (disp.take (disp.length / 2)).map f → b.dt = deltaT.take (disp.length / 2) →
      b'.n = ((stride k disp).take ((stride k disp).length / 2)).map f → b'.dt = (stride k deltaT).take ((stride k disp).length / 2) →
      b'.n.length = (disp.length + k - 1) / k / 2 ∧ ∀ i < b'.n.length, ∃ m, b'.n[i]? = some m ∧ b.n[k * i]? = some m ∧ b'.dt[i]? = b.dt[k * i]? := by
    intro f e1 e2 e3 e4
    have hl : b'.n.length = (disp.length + k - 1) / k / 2 := by
      rw [e3, List.length_map, List.length_take, stride_length k hk]
      exact min_eq_left (Nat.div_le_self _ _)
    refine ⟨hl, fun i hi => ?_⟩
    rw [hl] at hi
    have hki : k * i < disp.length / 2 := by
      have h3 : 2 * (i + 1) ≤ (disp.length + k - 1) / k := by omega
      have h4 : 2 * (i + 1) * k ≤ disp.length + k - 1 := (Nat.le_div_iff_mul_le hk).mp h3
      have h5 : 2 * (i + 1) * k = 2 * (k * i) + 2 * k := by ring
      omega
    have hget : disp[k * i]? = some (disp[k * i]'(by omega)) := List.getElem?_eq_getElem _
    refine ⟨f (disp[k * i]'(by omega)), ?_, ?_, ?_⟩
    · rw [e3, List.getElem?_map, List.getElem?_take, stride_length k hk, if_pos hi, stride_getElem? k hk, hget]
      rfl
    · rw [e1, List.getElem?_map, List.getElem?_take, if_pos hki, hget]
      rfl
    · rw [e4, e2, List.getElem?_take, List.getElem?_take, stride_length k hk, if_pos hi, if_pos hki, stride_getElem? k hk]
  rcases h with ⟨h, h'⟩ | ⟨h, h'⟩
  · obtain ⟨ds, dts, c1, c2, c3, c4⟩ := C29_mstd sq o opt hblock g g₁ deltaT disp nO 1 d b (first_half h2) h
    obtain ⟨ds', dts', c1', c2', c3', c4'⟩ := C29_mstd sq o opt hblock g g₂ deltaT disp nO k d b' (first_half h2) h'
    rw [pyStride_one] at c1 c2
    rw [hstr] at c1' c2'
    obtain rfl := Except.ok.inj c1
    obtain rfl := Except.ok.inj c2
    obtain rfl := Except.ok.inj c1'
    obtain rfl := Except.ok.inj c2'
    exact key _ c3 c4 c3' c4'
  · obtain ⟨ds, dts, c1, c2, c3, c4⟩ := C31_mscd_ignores_dimension sq o opt hblock g g₁ deltaT disp charge nO 1 d b N (first_half h2) hN hc h
    obtain ⟨ds', dts', c1', c2', c3', c4'⟩ := C31_mscd_ignores_dimension sq o opt hblock g g₂ deltaT disp charge nO k d b' N (first_half h2) hN hc h'
    rw [pyStride_one] at c1 c2
    rw [hstr] at c1' c2'
    obtain rfl := Except.ok.inj c1
    obtain rfl := Except.ok.inj c2
    obtain rfl := Except.ok.inj c1'
    obtain rfl := Except.ok.inj c2'
    exact key _ c3 c4 c3' c4'

/-- **C34 is violated for the variances**: with `sub_sample_dt = 2` the variance of the second kept interval (index 2) is divided by
`n_o[1] = 2` instead of `n_o[2] = 1`. -/
theorem C34_violated : ∃ b b',
    msdBootstrap id (exOracle ℚ) (exOpts ℚ) () [1, 2, 3] [exArr ℚ 4, exArr ℚ 3, exArr ℚ 2] [4, 2, 1] 1 "x" = .ok (b, ()) ∧
    msdBootstrap id (exOracle ℚ) (exOpts ℚ) () [1, 2, 3] [exArr ℚ 4, exArr ℚ 3, exArr ℚ 2] [4, 2, 1] 2 "x" = .ok (b', ()) ∧
    b.v[2]? = some (some (9 / 2)) ∧ b'.v[1]? = some (some (9 / 4)) := by
  have h1 : (msdBootstrap id (exOracle ℚ) (exOpts ℚ) () [1, 2, 3] [exArr ℚ 4, exArr ℚ 3, exArr ℚ 2] [4, 2, 1] 1 "x").toOption.map
      (fun r => r.1.v[2]?) = some (some (some (9 / 2))) := by decide +kernel
  have h2 : (msdBootstrap id (exOracle ℚ) (exOpts ℚ) () [1, 2, 3] [exArr ℚ 4, exArr ℚ 3, exArr ℚ 2] [4, 2, 1] 2 "x").toOption.map
      (fun r => r.1.v[1]?) = some (some (some (9 / 4))) := by decide +kernel
  cases h : msdBootstrap id (exOracle ℚ) (exOpts ℚ) () [1, 2, 3] [exArr ℚ 4, exArr ℚ 3, exArr ℚ 2] [4, 2, 1] 1 "x" with
  | error e => rw [h] at h1; cases h1
  | ok r =>
  cases h' : msdBootstrap id (exOracle ℚ) (exOpts ℚ) () [1, 2, 3] [exArr ℚ 4, exArr ℚ 3, exArr ℚ 2] [4, 2, 1] 2 "x" with
  | error e => rw [h'] at h2; cases h2
  | ok r' =>
    rw [h] at h1
    rw [h'] at h2
    exact ⟨r.1, r'.1, rfl, rfl, Option.some.inj h1, Option.some.inj h2⟩

/-! ### The theorems for concrete runs -/

theorem exRun_ok {α : Type} {x : PyM (α × Unit)} (h : x.toOption.isSome = true) : ∃ b, x = .ok (b, ()) := by
  cases x with
  | error e => cases h
  | ok r => exact ⟨r.1, rfl⟩

/-- Three intervals of two atoms, with three, two and two observations. -/
def exDisps : List (Arr3 ℚ) := [{ exArr ℚ 3 with n0 := 2 }, ⟨2, 2, fun i k => ![i, k, 1]⟩, ⟨2, 2, fun i k => ![k, i, 2]⟩]

/-- `C28_msd`, `C28_nonneg`, `C28_scaling` (by 3), `C28_atom_order` (both atoms exchanged), `C34_sub_sample_partial` (every second interval). -/
example : ∃ b b₁ b₂ b₃ : Boot ℚ, msdBootstrap id (exOracle ℚ) (exOpts ℚ) () [1, 2, 3] exDisps [6, 3, 2] 1 "XY" = .ok (b, ()) ∧
    (∃ ds dts, pyStride 1 exDisps = .ok ds ∧ pyStride 1 [1, 2, (3 : ℚ)] = .ok dts ∧ b.dt.length = b.n.length) ∧ (∀ m ∈ b.n, 0 ≤ m) ∧
    b₁.n = b.n.map (fun m => 3 ^ 2 * m) ∧ b₂.n = b.n ∧ b₃.n[1]? = b.n[2 * 1]? := by
  obtain ⟨b, h⟩ := exRun_ok (x := msdBootstrap id (exOracle ℚ) (exOpts ℚ) () [1, 2, 3] exDisps [6, 3, 2] 1 "XY") (by decide +kernel)
  obtain ⟨b₁, h₁⟩ := exRun_ok (x := msdBootstrap id (exOracle ℚ) (exOpts ℚ) () [1, 2, 3]
    (exDisps.map fun a => ⟨a.n0, a.n1, fun i k x => 3 * a.get i k x⟩) [6, 3, 2] 1 "XY") (by decide +kernel)
  obtain ⟨b₂, h₂⟩ := exRun_ok (x := msdBootstrap id (exOracle ℚ) (exOpts ℚ) () [1, 2, 3]
    (exDisps.map fun a => ⟨a.n0, a.n1, fun i => a.get (a.n0 - 1 - i)⟩) [6, 3, 2] 1 "XY") (by decide +kernel)
  obtain ⟨b₃, h₃⟩ := exRun_ok (x := msdBootstrap id (exOracle ℚ) (exOpts ℚ) () [1, 2, 3] exDisps [6, 3, 2] ((2 : ℕ) : ℤ) "XY") (by decide +kernel)
  obtain ⟨ds, dts, e1, e2, e3, -⟩ := C28_msd id (exOracle ℚ) (exOpts ℚ) rfl () () _ _ _ 1 "XY" b h
  refine ⟨b, b₁, b₂, b₃, h, ⟨ds, dts, e1, e2, e3⟩, C28_nonneg id (exOracle ℚ) (exOpts ℚ) rfl () () _ _ _ 1 "XY" b h,
    C28_scaling id (exOracle ℚ) (exOpts ℚ) rfl () () () _ _ _ 1 "XY" b b₁ 3 h h₁,
    C28_atom_order id (exOracle ℚ) (exOpts ℚ) rfl () () () _ _ _ 1 "XY" b b₂ (fun a i => a.n0 - 1 - i) ?_ h h₂,
    (C34_sub_sample_partial id (exOracle ℚ) (exOpts ℚ) rfl () () () _ _ _ 2 (by decide) "XY" b b₃ h h₃ 1).1⟩
  intro a
  refine ⟨fun i hi => ?_, fun i hi j hj e => ?_, fun i hi => ⟨a.n0 - 1 - i, ?_, ?_⟩⟩
  all_goals simp only [Finset.coe_range, Set.mem_Iio] at *
  all_goals omega

/-- `C30_mscd`, `C30_scalar_charge` (charge 2) and `C30_neutral` (charges 1 and -1, the cell shifted). -/
example : ∃ b b₁ b₂ b₃ : Boot ℚ, mscdBootstrap id (exOracle ℚ) (exOpts ℚ) () [1, 2, 3] exDisps (.scalar 2) [6, 3, 2] 1 "xyz" = .ok (b, ()) ∧
    (∃ ds, pyStride 1 exDisps = .ok ds ∧ b.n = (ds.take (ds.length / 2)).map (mscd (axesOf "xyz") (Charge.of (.scalar 2)))) ∧
    b.n = b₁.n.map (fun m => 2 ^ 2 * m) ∧ b₃.n = b₂.n := by
  have hax : axesOf "xyz" = Finset.univ := by decide +kernel
  have hN : ∀ a ∈ exDisps, a.n0 = 2 := by simp [exDisps]
  have h2 : ∀ a ∈ exDisps, 2 ≤ a.n1 := by simp [exDisps, exArr]
  obtain ⟨b, h⟩ := exRun_ok (x := mscdBootstrap id (exOracle ℚ) (exOpts ℚ) () [1, 2, 3] exDisps (.scalar 2) [6, 3, 2] 1 "xyz") (by decide +kernel)
  obtain ⟨b₁, h₁⟩ := exRun_ok (x := mstdBootstrap id (exOracle ℚ) (exOpts ℚ) () [1, 2, 3] exDisps [6, 3, 2] 1 "xyz") (by decide +kernel)
  obtain ⟨b₂, h₂⟩ := exRun_ok (x := mscdBootstrap id (exOracle ℚ) (exOpts ℚ) () [1, 2, 3] exDisps (.array [1, -1]) [6, 3, 2] 1 "xyz")
    (by decide +kernel)
  obtain ⟨b₃, h₃⟩ := exRun_ok (x := mscdBootstrap id (exOracle ℚ) (exOpts ℚ) () [1, 2, 3]
    (exDisps.map fun a => ⟨a.n0, a.n1, fun i k x => a.get i k x + (fun _ _ => 5 : Arr3 ℚ → ℕ → V3 ℚ) a k x⟩) (.array [1, -1]) [6, 3, 2] 1 "xyz")
    (by decide +kernel)
  refine ⟨b, b₁, b₂, b₃, h, ?_, ?_, ?_⟩
  · refine C30_mscd id (exOracle ℚ) (exOpts ℚ) rfl () () _ _ _ _ 1 "xyz" b 2 hax ?_ hN (fun l e => by cases e) h
    intro ds hds a ha
    have : ds = exDisps := by
      rw [pyStride_one] at hds
      exact (Except.ok.inj hds).symm
    exact h2 a (this ▸ List.mem_of_mem_take ha)
  · exact C30_scalar_charge id (exOracle ℚ) (exOpts ℚ) rfl () () () _ _ 2 _ 1 "xyz" b₁ b 2 hax h2 hN h₁ h
  · exact C30_neutral id (exOracle ℚ) (exOpts ℚ) rfl () () () _ _ [1, -1] _ 1 "xyz" b₂ b₃ h2 hN (by norm_num) _ h₂ h₃

/-- `C33_skipped_partial`: a last interval with one observation is no obstacle, a first one is. -/
example : (∃ r, msdBootstrap id (exOracle ℚ) (exOpts ℚ) () [1, 2] [exArr ℚ 2, exArr ℚ 1] [2, 1] 1 "xyz" = .ok r) ∧
    ¬ ∃ r, msdBootstrap id (exOracle ℚ) (exOpts ℚ) () [1, 2] [exArr ℚ 1, exArr ℚ 2] [2, 1] 1 "xyz" = .ok r := by
  have hd : "xyz".toLower ∈ acceptedDims := by decide +kernel
  constructor
  · refine (C33_skipped_partial id (exOracle ℚ) (exOpts ℚ) rfl rfl () _ _ _ "xyz" hd (by simp) (by simp) (by simp)).2 ?_
    intro i j a c hi hj hij h1
    match i, j with
    | 0, _ => simp at hi; subst hi; simp [exArr] at h1
    | 1, 1 => omega
    | 1, j + 2 => simp at hj
    | i + 2, _ => simp at hi
  · intro h
    have := (C33_skipped_partial id (exOracle ℚ) (exOpts ℚ) rfl rfl () _ _ _ "xyz" hd (by simp) (by simp) (by simp)).1 h 0 1 _ _ rfl rfl
      (by omega) (by simp [exArr])
    simp [exArr] at this

/-- `C31_planar_partial`: two ions in a plane. -/
example : ∃ b, mscdBootstrap id (exOracle ℚ) (exOpts ℚ) () [1, 2] [⟨2, 2, fun i k => ![(i : ℚ) + 1, k, 0]⟩, ⟨2, 2, fun i k => ![2, i, 0]⟩] (.array [1, -1]) [2, 1] 1 "xy" =
      .ok (b, ()) ∧ ∃ ds, pyStride 1 [(⟨2, 2, fun i k => ![(i : ℚ) + 1, k, 0]⟩ : Arr3 ℚ), ⟨2, 2, fun i k => ![2, i, 0]⟩] = .ok ds ∧
      b.n = (ds.take (ds.length / 2)).map (mscd (axesOf "xy") (Charge.array [1, -1] : Charge ℚ).of) := by
  obtain ⟨b, hb⟩ := exRun_ok (x := mscdBootstrap id (exOracle ℚ) (exOpts ℚ) () [1, 2] [⟨2, 2, fun i k => ![(i : ℚ) + 1, k, 0]⟩, ⟨2, 2, fun i k => ![2, i, 0]⟩]
    (.array [1, -1]) [2, 1] 1 "xy") (by decide +kernel)
  refine ⟨b, hb, C31_planar_partial _ _ _ rfl _ _ _ _ _ _ _ _ b 2 (first_half (by simp)) (by simp) (by intro l hl; cases hl; rfl) ?_ hb⟩
  have hz : ∀ x, x ∉ axesOf "xy" → x = 2 := by decide +kernel
  intro a ha i _ k _ x hx
  rw [hz x hx]
  fin_cases ha <;> rfl

/-- `C34_total_partial`: five intervals, every second one. -/
example : ∃ b b', mscdBootstrap id (exOracle ℚ) (exOpts ℚ) () [1, 2, 3, 4, 5] (List.replicate 5 (exArr ℚ 3)) (.array [2]) [5, 4, 3, 2, 2] 1 "xyz" = .ok (b, ()) ∧
    mscdBootstrap id (exOracle ℚ) (exOpts ℚ) () [1, 2, 3, 4, 5] (List.replicate 5 (exArr ℚ 3)) (.array [2]) [5, 4, 3, 2, 2] 2 "xyz" = .ok (b', ()) ∧
    b'.n.length = 1 ∧ ∀ i < b'.n.length, ∃ m, b'.n[i]? = some m ∧ b.n[2 * i]? = some m ∧ b'.dt[i]? = b.dt[2 * i]? := by
  obtain ⟨b, hb⟩ := exRun_ok (x := mscdBootstrap id (exOracle ℚ) (exOpts ℚ) () [1, 2, 3, 4, 5] (List.replicate 5 (exArr ℚ 3)) (.array [2]) [5, 4, 3, 2, 2] 1 "xyz")
    (by decide +kernel)
  obtain ⟨b', hb'⟩ := exRun_ok (x := mscdBootstrap id (exOracle ℚ) (exOpts ℚ) () [1, 2, 3, 4, 5] (List.replicate 5 (exArr ℚ 3)) (.array [2]) [5, 4, 3, 2, 2] 2 "xyz")
    (by decide +kernel)
  refine ⟨b, b', hb, hb', C34_total_partial _ _ _ rfl _ _ _ _ _ (.array [2]) _ 2 (by norm_num) _ b b' 1 ?_ ?_ (by intro l hl; cases hl; rfl) (.inr ⟨hb, hb'⟩)⟩ <;>
  · intro a ha
    rw [List.eq_of_mem_replicate ha]
    decide

end Kinisi

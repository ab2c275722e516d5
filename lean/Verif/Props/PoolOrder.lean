import Mathlib.Data.List.Perm.Basic
import Verif.Props.SingleOrigin
import Verif.Props.Pooled

/-!
# C111: the order in which identical-start trajectories are listed
-/

set_option linter.unusedSectionVars false
set_option linter.unusedVariables false

namespace Kinisi
open Spec
variable {K : Type} [Field K] [LinearOrder K] [IsStrictOrderedRing K] [FloorRing K] {G : Type}

theorem mapM_perm {α β : Type} {f : α → PyM β} {l l' : List α} (hl : l.Perm l') {r : List β} (h : l.mapM f = .ok r) :
    ∃ r', l'.mapM f = .ok r' ∧ r.Perm r' := by
  cases r with
  | nil =>
    have : l = [] := List.eq_nil_of_length_eq_zero (mapM_except_inv h).1.symm
    subst this
    rw [List.nil_perm.1 hl]
    exact ⟨[], rfl, .nil⟩
  | cons u0 others =>
  have hall : ∀ x ∈ l, f x = .ok ((f x).toOption.getD u0) := by
    intro x hx
    obtain ⟨i, hi⟩ := List.getElem?_of_mem hx
    obtain ⟨y, hy, -⟩ := (mapM_ok_inv h).2 i x hi
    rw [hy]; rfl
  have h1 := mapM_except_ok f (fun x => (f x).toOption.getD u0) l hall
  rw [h] at h1
  refine ⟨_, mapM_except_ok f (fun x => (f x).toOption.getD u0) l' fun x hx => hall x (hl.mem_iff.2 hx), ?_⟩
  rw [Except.ok.inj h1]
  exact hl.map _

/-- A sum over the rows of a concatenation. -/
theorem sum_rows {M : Type} [AddCommMonoid M] {n t : ℕ} {as : List (Arr3 K)} {p : Arr3 K} (h : Concat n t as p) (Φ : (ℕ → V3 K) → M) :
    ∑ i ∈ Finset.range p.n0, Φ (p.get i) = (as.map fun a => ∑ r ∈ Finset.range n, Φ (a.get r)).sum := by
  rw [h.atoms, sum_blocks, ← sum_range_list]
  congr 1
  apply List.ext_getElem?
  intro j
  rw [List.getElem?_map, List.getElem?_map]
  by_cases hj : j < as.length
  · rw [List.getElem?_range hj, List.getElem?_eq_getElem hj]
    simp only [Option.map_some, Option.some.injEq]
    apply Finset.sum_congr rfl
    intro r hr
    congr 1
    funext k x
    exact h.get j as[j] (List.getElem?_eq_getElem hj) r (Finset.mem_range.mp hr) k x
  · rw [List.getElem?_eq_none (by simpa using hj), List.getElem?_eq_none (by simpa using hj)]; rfl

/-- The two arrays have the same rows, perhaps in another order. -/
def SameRows (p p' : Arr3 K) : Prop :=
  p.n0 = p'.n0 ∧ p.n1 = p'.n1 ∧ ∀ Φ : (ℕ → V3 K) → K, ∑ i ∈ Finset.range p.n0, Φ (p.get i) = ∑ i ∈ Finset.range p'.n0, Φ (p'.get i)

theorem sameRows_concat {n t : ℕ} {as as' : List (Arr3 K)} {p p' : Arr3 K} (h : Concat n t as p) (h' : Concat n t as' p')
    (hp : as.Perm as') : SameRows p p' := by
  refine ⟨by rw [h.atoms, h'.atoms, hp.length_eq], by rw [h.obs, h'.obs], fun Φ => ?_⟩
  rw [sum_rows h, sum_rows h']
  exact (hp.map _).sum_eq

theorem SameRows.msd {p p' : Arr3 K} (h : SameRows p p') (A : Finset (Fin 3)) : Spec.msd A p = Spec.msd A p' := by
  obtain ⟨h0, h1, hs⟩ := h
  unfold Spec.msd
  rw [hs fun row => ∑ k ∈ Finset.range p.n1, ∑ x ∈ A, row k x ^ 2, h0, h1]

theorem SameRows.mstd {p p' : Arr3 K} (h : SameRows p p') (A : Finset (Fin 3)) : Spec.mstd A p = Spec.mstd A p' := by
  obtain ⟨h0, h1, hs⟩ := h
  unfold Spec.mstd
  rw [h1]
  congr 1
  exact Finset.sum_congr rfl fun k _ => Finset.sum_congr rfl fun x _ => by rw [hs fun row => row k x]

theorem SameRows.mscd {p p' : Arr3 K} (h : SameRows p p') (A : Finset (Fin 3)) (q : K) :
    Spec.mscd A (fun _ => q) p = Spec.mscd A (fun _ => q) p' := by
  obtain ⟨h0, h1, hs⟩ := h
  unfold Spec.mscd
  rw [h1]
  congr 1
  exact Finset.sum_congr rfl fun k _ => Finset.sum_congr rfl fun x _ => by rw [hs fun row => q * row k x]

theorem SameRows.var {p p' : Arr3 K} (h : SameRows p p') (A : Finset (Fin 3)) :
    varOn (pairs p) (sqLen A p) = varOn (pairs p') (sqLen A p') := by
  obtain ⟨h0, h1, hs⟩ := h
  have hsum : ∀ f : K → K, ∑ q ∈ pairs p, f (sqLen A p q) = ∑ q ∈ pairs p', f (sqLen A p' q) := by
    intro f
    unfold pairs
    rw [Finset.sum_product, Finset.sum_product]
    unfold sqLen
    dsimp only
    rw [hs fun row => ∑ k ∈ Finset.range p.n1, f (∑ x ∈ A, row k x ^ 2), h1]
  have hcard : (pairs p).card = (pairs p').card := by rw [pairs_card, pairs_card, h0, h1]
  have hmean : meanOn (pairs p) (sqLen A p) = meanOn (pairs p') (sqLen A p') := by
    unfold meanOn
    have := hsum id
    simp only [id] at this
    rw [this, hcard]
  unfold varOn
  rw [hmean, hcard, hsum fun y => (y - meanOn (pairs p') (sqLen A p')) ^ 2]

theorem sameRows_stride {sub : ℤ} {l l' ds ds' : List (Arr3 K)} (h : pyStride sub l = .ok ds) (h' : pyStride sub l' = .ok ds')
    (hl : List.Forall₂ SameRows l l') : ∀ (i : ℕ) (a a' : Arr3 K), ds[i]? = some a → ds'[i]? = some a' → SameRows a a' := by
  intro i a a' ha ha'
  obtain ⟨idx, e1, e2⟩ := pyStride_index h
  obtain ⟨idx', e3, e4⟩ := pyStride_index h'
  rw [hl.length_eq, e3] at e1
  obtain rfl := Except.ok.inj e1
  rw [e2] at ha
  rw [e4] at ha'
  cases hj : idx'[i]? with
  | none => rw [hj] at ha; cases ha
  | some j =>
    rw [hj] at ha ha'
    simp only [Option.bind_some] at ha ha'
    obtain ⟨b1, b2⟩ := List.getElem?_eq_some_iff.1 ha
    obtain ⟨c1, c2⟩ := List.getElem?_eq_some_iff.1 ha'
    have := (List.forall₂_iff_get.1 hl).2 j b1 c1
    simp only [List.get_eq_getElem, b2, c2] at this
    exact this

theorem stride_lengths {α β : Type} {sub : ℤ} {l ds : List α} {l' ds' : List β} (h : pyStride sub l = .ok ds) (h' : pyStride sub l' = .ok ds')
    (hl : l.length = l'.length) : ds.length = ds'.length := by
  have := stride_images (f := fun _ => ()) (f' := fun _ => ()) h h' (by
    rw [List.map_const', List.map_const', hl])
  simpa using congrArg List.length this

theorem pool_obs {l l' : List (Arr3 K)} (h : List.Forall₂ SameRows l l') {m : ℕ} (hm : l.length = m) {f T : ℕ → ℕ}
    (hl : ∀ (i : ℕ) (a : Arr3 K), l[i]? = some a → a.n0 = f i ∧ a.n1 = T i) (hT : ∀ i < m, 2 ≤ T i) :
    (∀ a ∈ l, 2 ≤ a.n1) ∧ ∀ a ∈ l', 2 ≤ a.n1 := by
  have h1 : ∀ a ∈ l, 2 ≤ a.n1 := by
    intro a ha
    obtain ⟨i, hi, rfl⟩ := List.getElem_of_mem ha
    rw [(hl i _ (List.getElem?_eq_getElem hi)).2]
    exact hT i (hm ▸ hi)
  refine ⟨h1, fun a ha => ?_⟩
  obtain ⟨i, hi, rfl⟩ := List.getElem_of_mem ha
  have := (List.forall₂_iff_get.1 h).2 i (h.length_eq ▸ hi) hi
  simp only [List.get_eq_getElem] at this
  rw [← this.2.1]
  exact h1 _ (List.getElem_mem _)

/-- Both orders give a pool; the pools have equal times and sample counts, and arrays with the same rows. -/
theorem pool_perm {α : Type} {parse : α → PyM (Parsed K)} (pj : Option (List α → PyM (Parsed K))) {xs xs' : List α} (hx : xs.Perm xs')
    {us : List (Parsed K)} (hp : xs.mapM parse = .ok us) (hne : us ≠ []) {m : ℕ} {N T : ℕ → ℕ} (hs : SameShape us m N T)
    (hdt : ∀ u ∈ us, ∀ w ∈ us, u.deltaT = w.deltaT) :
    ∃ A A', analyzerFrom parse pj (some "identical") (.several xs) = .ok A ∧
      analyzerFrom parse pj (some "identical") (.several xs') = .ok A' ∧ A'.deltaT = A.deltaT ∧ A'.nO = A.nO ∧
      List.Forall₂ SameRows A.disp3d A'.disp3d ∧ A.disp3d.length = m ∧
      (∀ (i : ℕ) (a : Arr3 K), A.disp3d[i]? = some a → a.n0 = us.length * N i ∧ a.n1 = T i) ∧
      ((∀ u ∈ us, ∀ w ∈ us, u.volume = w.volume) → A'.volume = A.volume) := by
  obtain ⟨us', hp', hus⟩ := mapM_perm hx hp
  cases us with
  | nil => exact absurd rfl hne
  | cons u0 others =>
  cases us' with
  | nil => exact absurd (List.perm_nil.1 hus) (by simp)
  | cons w0 others' =>
  have hs' : SameShape (w0 :: others') m N T := fun u hu => hs u (hus.mem_iff.2 hu)
  have hw0 : w0 ∈ u0 :: others := hus.mem_iff.2 (by simp)
  obtain ⟨A, hA, a1, a2, a3, a4, a5, a6⟩ := C53_pool parse pj xs u0 others hp m N T hs
  obtain ⟨A', hA', b1, b2, b3, b4, b5, b6⟩ := C53_pool parse pj xs' w0 others' hp' m N T hs'
  refine ⟨A, A', hA, hA', ?_, ?_, ?_, a3, ?_, ?_⟩
  · rw [a1, b1]
    exact hdt w0 hw0 u0 (by simp)
  · apply List.ext_getElem?
    intro i
    by_cases hi : i < m
    · rw [a6 i hi, b6 i hi, (hus.map fun u => u.nO.getD i 0).sum_eq]
    · rw [List.getElem?_eq_none (by omega), List.getElem?_eq_none (by omega)]
  · rw [List.forall₂_iff_get]
    refine ⟨by rw [a3, b3], fun i h1 h2 => ?_⟩
    rw [a3] at h1
    obtain ⟨p, c1, c2⟩ := a5 i h1
    obtain ⟨p', d1, d2⟩ := b5 i h1
    obtain ⟨e1, e2⟩ := List.getElem?_eq_some_iff.1 c1
    obtain ⟨e3, e4⟩ := List.getElem?_eq_some_iff.1 d1
    rw [List.get_eq_getElem, List.get_eq_getElem, e2, e4]
    exact sameRows_concat c2 d2 (hus.filterMap _)
  · intro i a ha
    obtain ⟨hi, -⟩ := List.getElem?_eq_some_iff.1 ha
    rw [a3] at hi
    obtain ⟨p, c1, c2⟩ := a5 i hi
    rw [ha] at c1
    obtain rfl := Option.some.inj c1
    refine ⟨?_, c2.obs⟩
    rw [c2.atoms]
    congr 1
    have : ∀ l : List (Parsed K), (∀ u ∈ l, u.disp3d.length = m) → (l.filterMap fun u => u.disp3d[i]?).length = l.length := by
      intro l hl
      induction l with
      | nil => rfl
      | cons u l ih =>
        have hu : u.disp3d[i]? = some (u.disp3d[i]'(by rw [hl u (by simp)]; exact hi)) := List.getElem?_eq_getElem _
        rw [List.filterMap_cons, hu]
        simp only [List.length_cons]
        rw [ih fun u hu => hl u (by simp [hu])]
    exact this _ fun u hu => (hs u hu).1
  · intro h
    rw [a2, b2]
    exact h w0 hw0 u0 (by simp)

/-- **C111, the pool.** For every input format, identical-start trajectories whose parsed displacement arrays have the same shapes and times
are accepted in every order, with the same times, the same numbers of samples and the same shapes; the volume is the same if all
trajectories have the same volume.  (Missing for the full property: different volumes and shapes, see `C111_violated`.) -/
theorem C111_pool_partial {α : Type} (parse : α → PyM (Parsed K)) (pj : Option (List α → PyM (Parsed K))) (xs xs' : List α)
    (hx : xs.Perm xs') (us : List (Parsed K)) (hp : xs.mapM parse = .ok us) (hne : us ≠ []) (m : ℕ) (N T : ℕ → ℕ)
    (hs : SameShape us m N T) (hdt : ∀ u ∈ us, ∀ w ∈ us, u.deltaT = w.deltaT) :
    ∃ A A', analyzerFrom parse pj (some "identical") (.several xs) = .ok A ∧
      analyzerFrom parse pj (some "identical") (.several xs') = .ok A' ∧ A'.deltaT = A.deltaT ∧ A'.nO = A.nO ∧
      A'.disp3d.map (fun a => (a.n0, a.n1)) = A.disp3d.map (fun a => (a.n0, a.n1)) ∧
      ((∀ u ∈ us, ∀ w ∈ us, u.volume = w.volume) → A'.volume = A.volume) := by
  obtain ⟨A, A', h1, h2, h3, h4, h5, -, -, h6⟩ := pool_perm pj hx hp hne hs hdt
  refine ⟨A, A', h1, h2, h3, h4, ?_, h6⟩
  rw [List.forall₂_iff_get] at h5
  apply List.ext_getElem (by simp [h5.1])
  intro i j1 j2
  have := h5.2 i (by simpa using j2) (by simpa using j1)
  simp only [List.get_eq_getElem] at this
  simp [this.1, this.2.1]

/-- **C111, MSD.** The MSD curve, its times and its variances do not depend on the order. -/
theorem C111_msd_partial {α : Type} (parse : α → PyM (Parsed K)) (pj : Option (List α → PyM (Parsed K))) (xs xs' : List α)
    (hx : xs.Perm xs') (us : List (Parsed K)) (hp : xs.mapM parse = .ok us) (hne : us ≠ []) (m : ℕ) (N T : ℕ → ℕ)
    (hs : SameShape us m N T) (hdt : ∀ u ∈ us, ∀ w ∈ us, u.deltaT = w.deltaT) (A A' : Base K)
    (hA : analyzerFrom parse pj (some "identical") (.several xs) = .ok A)
    (hA' : analyzerFrom parse pj (some "identical") (.several xs') = .ok A') (sq : K → K) (o : Oracle K G) (U : UncParams K)
    (hblock : U.opt.block = false) (g g₁ g' g₂ : G) (b b' : Boot K)
    (hb : msdBootstrap sq o U.opt g A.deltaT A.disp3d A.nO U.sub U.dimension = .ok (b, g₁))
    (hb' : msdBootstrap sq o U.opt g' A'.deltaT A'.disp3d A'.nO U.sub U.dimension = .ok (b', g₂)) :
    b'.n = b.n ∧ b'.dt = b.dt ∧ (U.sub = 1 → (∀ y ∈ A.nO, 0 < y) → b'.v = b.v) := by
  obtain ⟨B, B', e1, e2, h3, h4, h5, -, -, -⟩ := pool_perm pj hx hp hne hs hdt
  rw [hA] at e1
  rw [hA'] at e2
  obtain rfl := Except.ok.inj e1
  obtain rfl := Except.ok.inj e2
  obtain ⟨ds, dts, c1, c2, c3, c4, c5⟩ := C28_msd sq o U.opt hblock g g₁ _ _ _ _ _ b hb
  obtain ⟨ds', dts', d1, d2, d3, d4, d5⟩ := C28_msd sq o U.opt hblock g' g₂ _ _ _ _ _ b' hb'
  rw [h3, c2] at d2
  obtain rfl := Except.ok.inj d2
  have hrows := sameRows_stride c1 d1 h5
  have hlen := stride_lengths c1 d1 h5.length_eq
  have hb1 : b'.n.length = b.n.length := by
    rcases lt_trichotomy b'.n.length b.n.length with h | h | h
    · obtain ⟨a, x1, x2, -, -⟩ := c4 _ h
      obtain ⟨hi, -⟩ := List.getElem?_eq_some_iff.1 x1
      have := d5 _ le_rfl _ (List.getElem?_eq_getElem (hlen ▸ hi))
      obtain ⟨y1, y2, -⟩ := hrows _ _ _ x1 (List.getElem?_eq_getElem (hlen ▸ hi))
      rw [← y1, ← y2] at this
      omega
    · exact h
    · obtain ⟨a, x1, x2, -, -⟩ := d4 _ h
      obtain ⟨hi, -⟩ := List.getElem?_eq_some_iff.1 x1
      have := c5 _ le_rfl _ (List.getElem?_eq_getElem (hlen.symm ▸ hi))
      obtain ⟨y1, y2, -⟩ := hrows _ _ _ (List.getElem?_eq_getElem (hlen.symm ▸ hi)) x1
      rw [y1, y2] at this
      omega
  refine ⟨?_, ?_, ?_⟩
  · apply List.ext_getElem?
    intro i
    by_cases hi : i < b.n.length
    · obtain ⟨a, x1, -, x2, -⟩ := c4 i hi
      obtain ⟨a', y1, -, y2, -⟩ := d4 i (by omega)
      rw [x2, y2, (hrows i a a' x1 y1).msd]
    · rw [List.getElem?_eq_none (by omega), List.getElem?_eq_none (by omega)]
  · apply List.ext_getElem?
    intro i
    by_cases hi : i < b.n.length
    · obtain ⟨a, x1, -, -, x2⟩ := c4 i hi
      obtain ⟨a', y1, -, -, y2⟩ := d4 i (by omega)
      rw [x2, y2]
    · rw [List.getElem?_eq_none (by omega), List.getElem?_eq_none (by omega)]
  · intro hsub hno
    obtain ⟨v1, v2⟩ := reported_variance hblock hsub hno hb
    obtain ⟨w1, w2⟩ := reported_variance hblock hsub (h4 ▸ hno) hb'
    apply List.ext_getElem?
    intro i
    by_cases hi : i < b.n.length
    · obtain ⟨a, no, x1, x2, x3⟩ := v2 i hi
      obtain ⟨a', no', y1, y2, y3⟩ := w2 i (by omega)
      rw [h4, x2] at y2
      obtain rfl := Option.some.inj y2
      obtain ⟨z1, z2⟩ := List.getElem?_eq_some_iff.1 x1
      obtain ⟨z3, z4⟩ := List.getElem?_eq_some_iff.1 y1
      have hr := (List.forall₂_iff_get.1 h5).2 i z1 z3
      simp only [List.get_eq_getElem, z2, z4] at hr
      rw [x3, y3, hr.var]
    · rw [List.getElem?_eq_none (by omega), List.getElem?_eq_none (by omega)]

theorem take_eq_map {β : Type} {ds ds' : List (Arr3 K)} {φ : Arr3 K → β} (hlen : ds.length = ds'.length)
    (h : ∀ (i : ℕ) (a a' : Arr3 K), ds[i]? = some a → ds'[i]? = some a' → φ a = φ a') (k : ℕ) :
    (ds'.take k).map φ = (ds.take k).map φ := by
  rw [List.map_take, List.map_take]
  congr 1
  apply List.ext_getElem (by simp [hlen])
  intro i h1 h2
  rw [List.getElem_map, List.getElem_map]
  simp only [List.length_map] at h1 h2
  exact (h i _ _ (List.getElem?_eq_getElem h2) (List.getElem?_eq_getElem h1)).symm

/-- **C111, MSTD.** The same for the total displacement. -/
theorem C111_mstd_partial {α : Type} (parse : α → PyM (Parsed K)) (pj : Option (List α → PyM (Parsed K))) (xs xs' : List α)
    (hx : xs.Perm xs') (us : List (Parsed K)) (hp : xs.mapM parse = .ok us) (hne : us ≠ []) (m : ℕ) (N T : ℕ → ℕ)
    (hs : SameShape us m N T) (hT : ∀ i < m, 2 ≤ T i) (hdt : ∀ u ∈ us, ∀ w ∈ us, u.deltaT = w.deltaT) (A A' : Base K)
    (hA : analyzerFrom parse pj (some "identical") (.several xs) = .ok A)
    (hA' : analyzerFrom parse pj (some "identical") (.several xs') = .ok A') (sq : K → K) (o : Oracle K G) (U : UncParams K)
    (hblock : U.opt.block = false) (g g₁ g' g₂ : G) (b b' : Boot K)
    (hb : mstdBootstrap sq o U.opt g A.deltaT A.disp3d A.nO U.sub U.dimension = .ok (b, g₁))
    (hb' : mstdBootstrap sq o U.opt g' A'.deltaT A'.disp3d A'.nO U.sub U.dimension = .ok (b', g₂)) :
    b'.n = b.n ∧ b'.dt = b.dt := by
  obtain ⟨B, B', e1, e2, h3, h4, h5, h6, h7, -⟩ := pool_perm pj hx hp hne hs hdt
  rw [hA] at e1
  rw [hA'] at e2
  obtain rfl := Except.ok.inj e1
  obtain rfl := Except.ok.inj e2
  have hn1 := pool_obs h5 h6 h7 hT
  obtain ⟨ds, dts, c1, c2, c3, c4⟩ := C29_mstd sq o U.opt hblock g g₁ _ _ _ _ _ b (fun ds h a ha => hn1.1 a (pyStride_mem h (List.mem_of_mem_take ha))) hb
  obtain ⟨ds', dts', d1, d2, d3, d4⟩ := C29_mstd sq o U.opt hblock g' g₂ _ _ _ _ _ b' (fun ds h a ha => hn1.2 a (pyStride_mem h (List.mem_of_mem_take ha))) hb'
  rw [h3, c2] at d2
  obtain rfl := Except.ok.inj d2
  have hrows := sameRows_stride c1 d1 h5
  have hlen := stride_lengths c1 d1 h5.length_eq
  rw [c3, d3, c4, d4, ← hlen]
  exact ⟨take_eq_map hlen (fun i a a' h h' => (hrows i a a' h h').mstd _) _, rfl⟩

/-- **C111, MSCD.** The same for the charge displacement, when all atoms have the same charge. -/
theorem C111_mscd_partial {α : Type} (parse : α → PyM (Parsed K)) (pj : Option (List α → PyM (Parsed K))) (xs xs' : List α)
    (hx : xs.Perm xs') (us : List (Parsed K)) (hp : xs.mapM parse = .ok us) (hne : us ≠ []) (m n : ℕ) (T : ℕ → ℕ)
    (hs : SameShape us m (fun _ => n) T) (hT : ∀ i < m, 2 ≤ T i) (hdt : ∀ u ∈ us, ∀ w ∈ us, u.deltaT = w.deltaT) (A A' : Base K)
    (hA : analyzerFrom parse pj (some "identical") (.several xs) = .ok A)
    (hA' : analyzerFrom parse pj (some "identical") (.several xs') = .ok A') (sq : K → K) (o : Oracle K G) (U : UncParams K)
    (hblock : U.opt.block = false) (q : K) (g g₁ g' g₂ : G) (b b' : Boot K)
    (hb : mscdBootstrap sq o U.opt g A.deltaT A.disp3d (.scalar q) A.nO U.sub U.dimension = .ok (b, g₁))
    (hb' : mscdBootstrap sq o U.opt g' A'.deltaT A'.disp3d (.scalar q) A'.nO U.sub U.dimension = .ok (b', g₂)) :
    b'.n = b.n ∧ b'.dt = b.dt := by
  obtain ⟨B, B', e1, e2, h3, h4, h5, h6, h7, -⟩ := pool_perm pj hx hp hne hs hdt
  rw [hA] at e1
  rw [hA'] at e2
  obtain rfl := Except.ok.inj e1
  obtain rfl := Except.ok.inj e2
  have hn1 := pool_obs h5 h6 h7 hT
  have hn0 : ∀ a ∈ A.disp3d, a.n0 = us.length * n := by
    intro a ha
    obtain ⟨i, hi⟩ := List.getElem?_of_mem ha
    exact (h7 i a hi).1
  have hn0' : ∀ a ∈ A'.disp3d, a.n0 = us.length * n := by
    intro a ha
    obtain ⟨i, hi, rfl⟩ := List.getElem_of_mem ha
    have := (List.forall₂_iff_get.1 h5).2 i (h5.length_eq ▸ hi) hi
    simp only [List.get_eq_getElem] at this
    rw [← this.1]
    exact hn0 _ (List.getElem_mem _)
  obtain ⟨ds, dts, c1, c2, c3, c4⟩ := C31_mscd_ignores_dimension sq o U.opt hblock g g₁ _ _ _ _ _ _ b _
    (fun ds h a ha => hn1.1 a (pyStride_mem h (List.mem_of_mem_take ha))) hn0 (fun l h => by cases h) hb
  obtain ⟨ds', dts', d1, d2, d3, d4⟩ := C31_mscd_ignores_dimension sq o U.opt hblock g' g₂ _ _ _ _ _ _ b' _
    (fun ds h a ha => hn1.2 a (pyStride_mem h (List.mem_of_mem_take ha))) hn0' (fun l h => by cases h) hb'
  rw [h3, c2] at d2
  obtain rfl := Except.ok.inj d2
  have hrows := sameRows_stride c1 d1 h5
  have hlen := stride_lengths c1 d1 h5.length_eq
  rw [c3, d3, c4, d4, ← hlen]
  exact ⟨take_eq_map hlen (fun i a a' h h' => (hrows i a a' h h').mscd _ q) _, rfl⟩

/-! ## Examples and violation -/

/-- The example trajectory in a cell with doubled edges. -/
def exGrown : List (Frame ℚ) := exTraj.map fun f => { f with latt := boxOf fun _ => 20, volume := 8000 }

/-- **C111 is violated.** The volume of a pool is that of the trajectory listed first, so it changes with the order; and a trajectory with one
mobile atom is accepted after one with two atoms, but not before it. -/
theorem C111_violated :
    (fromAse exNum exShort exSelect 1 (some "identical") (.several [exTraj, exGrown])).toOption.map (fun A => A.volume) = some (some 1000) ∧
    (fromAse exNum exShort exSelect 1 (some "identical") (.several [exGrown, exTraj])).toOption.map (fun A => A.volume) = some (some 8000) ∧
    (fromAse exNum exShort exSelect 1 (some "identical") (.several [exTraj, oneLi])).toOption.isSome = true ∧
    (fromAse exNum exShort exSelect 1 (some "identical") (.several [oneLi, exTraj])).toOption.isSome = false := by
  refine ⟨?_, ?_, ?_, ?_⟩ <;> decide +kernel

/-- What the theorems ask of the two trajectories, which have different curves. -/
theorem exOrder : ∃ us, [exTraj, exGrown].mapM (aseParser exNum exShort exSelect 1) = .ok us ∧ us ≠ [] ∧
    SameShape us 2 (fun _ => 2) (fun i => if i = 0 then 5 else 4) ∧ ∀ u ∈ us, ∀ w ∈ us, u.deltaT = w.deltaT := by
  have h1 : ([exTraj, exGrown].mapM (aseParser exNum exShort exSelect 1)).toOption.map (fun us =>
      us.map fun u => (u.nO.length, u.disp3d.map fun a => (a.n0, a.n1), u.deltaT)) =
        some [(2, [(2, 5), (2, 4)], [6, 12]), (2, [(2, 5), (2, 4)], [6, 12])] := by
    decide +kernel
  cases h : [exTraj, exGrown].mapM (aseParser exNum exShort exSelect 1) with
  | error e => rw [h] at h1; cases h1
  | ok us =>
    rw [h] at h1
    have h2 : (us.map fun u => (u.nO.length, u.disp3d.map fun a => (a.n0, a.n1), u.deltaT)) =
        [(2, [(2, 5), (2, 4)], [6, 12]), (2, [(2, 5), (2, 4)], [6, 12])] := Option.some.inj h1
    have h3 : ∀ u ∈ us, (u.nO.length, u.disp3d.map fun a => (a.n0, a.n1), u.deltaT) = (2, [(2, 5), (2, 4)], [6, 12]) := by
      intro u hu
      have := List.mem_map_of_mem (f := fun u : Parsed ℚ => (u.nO.length, u.disp3d.map fun a => (a.n0, a.n1), u.deltaT)) hu
      rw [h2] at this
      simpa using this
    refine ⟨us, rfl, fun e => ?_, fun u hu => ?_, fun u hu w hw => ?_⟩
    · rw [e] at h2; cases h2
    · have h4 : u.disp3d.map (fun a => (a.n0, a.n1)) = [(2, 5), (2, 4)] := congrArg (fun x => x.2.1) (h3 u hu)
      refine ⟨by simpa using congrArg List.length h4, congrArg Prod.fst (h3 u hu), fun i a ha => ?_⟩
      have h5 := congrArg (fun l => l[i]?) h4
      simp only [List.getElem?_map, ha, Option.map_some] at h5
      match i with
      | 0 => simpa using Option.some.inj h5
      | 1 => simpa using Option.some.inj h5
      | i + 2 => simp at h5
    · exact (congrArg (fun x => x.2.2) (h3 u hu)).trans (congrArg (fun x => x.2.2) (h3 w hw)).symm

/-- `C111_pool_partial`, `C111_msd_partial`, `C111_mstd_partial` and `C111_mscd_partial` for the two orders of these trajectories. -/
example : ∃ A A', fromAse exNum exShort exSelect 1 (some "identical") (.several [exTraj, exGrown]) = .ok A ∧
    fromAse exNum exShort exSelect 1 (some "identical") (.several [exGrown, exTraj]) = .ok A' ∧ A'.nO = A.nO ∧
    ∃ b b' c c' e e', msdBootstrap id (exOracle ℚ) exUnc.opt () A.deltaT A.disp3d A.nO exUnc.sub exUnc.dimension = .ok (b, ()) ∧
      msdBootstrap id (exOracle ℚ) exUnc.opt () A'.deltaT A'.disp3d A'.nO exUnc.sub exUnc.dimension = .ok (b', ()) ∧
      mstdBootstrap id (exOracle ℚ) exUnc.opt () A.deltaT A.disp3d A.nO exUnc.sub exUnc.dimension = .ok (c, ()) ∧
      mstdBootstrap id (exOracle ℚ) exUnc.opt () A'.deltaT A'.disp3d A'.nO exUnc.sub exUnc.dimension = .ok (c', ()) ∧
      mscdBootstrap id (exOracle ℚ) exUnc.opt () A.deltaT A.disp3d (.scalar 2) A.nO exUnc.sub exUnc.dimension = .ok (e, ()) ∧
      mscdBootstrap id (exOracle ℚ) exUnc.opt () A'.deltaT A'.disp3d (.scalar 2) A'.nO exUnc.sub exUnc.dimension = .ok (e', ()) ∧
      b'.n = b.n ∧ b'.v = b.v ∧ c'.n = c.n ∧ e'.n = e.n := by
  obtain ⟨us, hp, hne, hs, hdt⟩ := exOrder
  have hx : [exTraj, exGrown].Perm [exGrown, exTraj] := List.Perm.swap _ _ _
  obtain ⟨A, A', h1, h2, h3, h4, h5, -⟩ := C111_pool_partial (aseParser exNum exShort exSelect 1)
    (some fun xs => aseParser exNum exShort exSelect 1 (flattenList xs)) _ _ hx us hp hne _ _ _ hs hdt
  have hrun : ∀ l, (match fromAse exNum exShort exSelect 1 (some "identical") (.several l) with
      | .error _ => false
      | .ok A => (msdBootstrap id (exOracle ℚ) exUnc.opt () A.deltaT A.disp3d A.nO exUnc.sub exUnc.dimension).toOption.isSome &&
        (mstdBootstrap id (exOracle ℚ) exUnc.opt () A.deltaT A.disp3d A.nO exUnc.sub exUnc.dimension).toOption.isSome &&
        (mscdBootstrap id (exOracle ℚ) exUnc.opt () A.deltaT A.disp3d (.scalar 2) A.nO exUnc.sub exUnc.dimension).toOption.isSome &&
        decide (∀ y ∈ A.nO, 0 < y)) = true → ∀ A, fromAse exNum exShort exSelect 1 (some "identical") (.several l) = .ok A →
      (∃ b, msdBootstrap id (exOracle ℚ) exUnc.opt () A.deltaT A.disp3d A.nO exUnc.sub exUnc.dimension = .ok (b, ())) ∧
      (∃ b, mstdBootstrap id (exOracle ℚ) exUnc.opt () A.deltaT A.disp3d A.nO exUnc.sub exUnc.dimension = .ok (b, ())) ∧
      (∃ b, mscdBootstrap id (exOracle ℚ) exUnc.opt () A.deltaT A.disp3d (.scalar 2) A.nO exUnc.sub exUnc.dimension = .ok (b, ())) ∧
      ∀ y ∈ A.nO, 0 < y := by
    intro l h A hA
    rw [hA] at h
    simp only [Bool.and_eq_true, decide_eq_true_eq] at h
    exact ⟨exRun_ok h.1.1.1, exRun_ok h.1.1.2, exRun_ok h.1.2, h.2⟩
  obtain ⟨⟨b, hb⟩, ⟨c, hc⟩, ⟨e, he⟩, hno⟩ := hrun _ (by decide +kernel) A h1
  obtain ⟨⟨b', hb'⟩, ⟨c', hc'⟩, ⟨e', he'⟩, -⟩ := hrun _ (by decide +kernel) A' h2
  have hT : ∀ i < 2, 2 ≤ if i = 0 then 5 else 4 := by decide
  have r1 := C111_msd_partial _ _ _ _ hx us hp hne _ _ _ hs hdt A A' h1 h2 _ _ exUnc rfl _ _ _ _ b b' hb hb'
  have r2 := C111_mstd_partial _ _ _ _ hx us hp hne _ _ _ hs hT hdt A A' h1 h2 _ _ exUnc rfl _ _ _ _ c c' hc hc'
  have r3 := C111_mscd_partial _ _ _ _ hx us hp hne _ _ _ hs hT hdt A A' h1 h2 _ _ exUnc rfl 2 _ _ _ _ e e' he he'
  exact ⟨A, A', h1, h2, h4, b, b', c, c', e, e', hb, hb', hc, hc', he, he', r1.1, r1.2.2 rfl hno, r2.1, r3.1⟩

end Kinisi

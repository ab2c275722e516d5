import Verif.Props.Conditioning
import Verif.Props.PoolFit
import Verif.Props.Species
import Mathlib.Algebra.Module.LinearMap.Defs
import Mathlib.Algebra.BigOperators.Group.List.Lemmas

/-!
# C153: one fit of the pool or the mean of many fits

Gradients are not allowed to be negative.  A trajectory whose curve falls gets the gradient 0, so that the mean of the separate fits is too high; the fit of the pool is not affected.
-/

set_option linter.unusedSectionVars false
set_option linter.unusedVariables false

namespace Kinisi
open Spec
variable {K : Type} [Field K] [LinearOrder K] [IsStrictOrderedRing K] [FloorRing K] {G : Type}

/-- What the parsers guarantee for one trajectory (`read_const`), for a pool of them. -/
theorem pool_const {α : Type} {parse : α → PyM (Parsed K)} {pj : Option (List α → PyM (Parsed K))} {xs : List α} {u0 : Parsed K} {others : List (Parsed K)} (hp : xs.mapM parse = .ok (u0 :: others)) {m : ℕ} {N T : ℕ → ℕ}
    (hs : SameShape (u0 :: others) m N T) (hdt : ∀ u ∈ others, u.deltaT = u0.deltaT)
    (hread : ∀ u ∈ u0 :: others, (∀ n ∈ u.nO, 0 < n) ∧ ∃ κ : K, ∀ (k : ℕ) (t n : K), u.deltaT[k]? = some t → u.nO[k]? = some n → n * t = κ) {A : Base K}
    (hA : analyzerFrom parse pj (some "identical") (.several xs) = .ok A) :
    A.deltaT = u0.deltaT ∧ (∀ n ∈ A.nO, 0 < n) ∧ A.nO.length = A.disp3d.length ∧ ∃ κ : K, ∀ (k : ℕ) (t n : K), A.deltaT[k]? = some t → A.nO[k]? = some n → n * t = κ := by
  obtain ⟨A', hA', hT, -, l1, l2, -, hn⟩ := C53_pool parse pj xs u0 others hp m N T hs
  rw [hA] at hA'
  obtain rfl := Except.ok.inj hA'
  have hpos : ∀ (us : List (Parsed K)) (k : ℕ), k < m → (∀ u ∈ us, u.nO.length = m ∧ ∀ n ∈ u.nO, 0 < n) → 0 ≤ (us.map fun u => u.nO.getD k 0).sum := by
    intro us k hk h
    refine List.sum_nonneg fun x hx => ?_
    obtain ⟨u, hu, rfl⟩ := List.mem_map.1 hx
    rw [List.getD_eq_getElem?_getD, List.getElem?_eq_getElem (by rw [(h u hu).1]; exact hk)]
    exact ((h u hu).2 _ (List.getElem_mem _)).le
  refine ⟨hT, fun n hm => ?_, by rw [l1, l2], ?_⟩
  · obtain ⟨k, hk, rfl⟩ := List.getElem_of_mem hm
    have := hn k (by omega)
    rw [List.getElem?_eq_getElem hk] at this
    rw [Option.some.inj this, List.map_cons, List.sum_cons]
    refine add_pos_of_pos_of_nonneg ?_ (hpos others k (by omega) fun u hu => ⟨(hs u (by simp [hu])).2.1, (hread u (by simp [hu])).1⟩)
    rw [List.getD_eq_getElem?_getD, List.getElem?_eq_getElem (by rw [(hs u0 (by simp)).2.1]; omega)]
    exact (hread u0 (by simp)).1 _ (List.getElem_mem _)
  · have key : ∀ us : List (Parsed K), (∀ u ∈ us, u.nO.length = m ∧ u.deltaT = u0.deltaT ∧ ∃ κ : K, ∀ (k : ℕ) (t n : K), u.deltaT[k]? = some t → u.nO[k]? = some n → n * t = κ) →
        ∃ κ : K, ∀ (k : ℕ) (t : K), k < m → u0.deltaT[k]? = some t → (us.map fun u => u.nO.getD k 0).sum * t = κ := by
      intro us h
      induction us with
      | nil => exact ⟨0, fun k t _ _ => by simp⟩
      | cons u us ih =>
        obtain ⟨κ, hκ⟩ := ih fun u hu => h u (by simp [hu])
        obtain ⟨hl, hd, κ', hκ'⟩ := h u (by simp)
        refine ⟨κ' + κ, fun k t hk ht => ?_⟩
        rw [List.map_cons, List.sum_cons, add_mul, hκ k t hk ht]
        congr 1
        refine hκ' k t _ (by rw [hd]; exact ht) ?_
        rw [List.getD_eq_getElem?_getD, List.getElem?_eq_getElem (by rw [hl]; exact hk)]
        rfl
    obtain ⟨κ, hκ⟩ := key (u0 :: others) fun u hu => ⟨(hs u hu).2.1, by rcases List.mem_cons.1 hu with rfl | h; exacts [rfl, hdt u h], (hread u hu).2⟩
    refine ⟨κ, fun k t n ht hnk => ?_⟩
    have hk : k < m := by rw [← l2]; exact (List.getElem?_eq_some_iff.1 hnk).1
    rw [hn k hk] at hnk
    rw [← Option.some.inj hnk]
    exact hκ k t hk (by rw [← hT]; exact ht)

/-- **C153, where it applies.** Trajectories with identical starting points and equal time intervals, each read by one of the three readers with all its frames, pooled: MSD, MSTD and MSCD of the pool satisfy what the theorems on fits
with the random walk model ask for (C134, C141, C147-C149, C152), as those of a single trajectory do. -/
theorem C153_runs {α : Type} (parse : α → PyM (Parsed K)) (pj : Option (List α → PyM (Parsed K))) (xs : List α) (u0 : Parsed K) (others : List (Parsed K)) (hp : xs.mapM parse = .ok (u0 :: others)) (m : ℕ) (N T : ℕ → ℕ)
    (hs : SameShape (u0 :: others) m N T) (hdt : ∀ u ∈ others, u.deltaT = u0.deltaT) (E : Num K) (hfl : E.fl = id) (P : Params K) (hsm : P.sampling = "multi-origin") (hc : 0 < P.stepSkip.val * P.timeStep.val) (S : Select K)
    (hread : ∀ u ∈ u0 :: others, ∃ fr uni unit, ReadFrames E P S fr uni (.ok (baseOf u)) unit) (hpos : ∀ t ∈ u0.deltaT, 0 < t) (hasc : u0.deltaT.Pairwise (· < ·)) (sq : K → K) (o : Oracle K G) (U : UncParams K)
    (hsub : U.sub = 1) (charge : Charge K) (g₁ g₂ : G) (Z : Analyzer K)
    (h : diffusionAnalyzer sq o g₁ U (analyzerFrom parse pj (some "identical") (.several xs)) = .ok (Z, g₂) ∨ jumpAnalyzer sq o g₁ U (analyzerFrom parse pj (some "identical") (.several xs)) = .ok (Z, g₂) ∨
      conductivityAnalyzer sq o g₁ U charge (analyzerFrom parse pj (some "identical") (.several xs)) = .ok (Z, g₂)) :
    InverseCounts Z.diff ∧ Aligned Z.diff ∧ ∃ q, Z.diff.dt = u0.deltaT.take q := by
  have hone : ∀ u ∈ u0 :: others, (∀ n ∈ u.nO, 0 < n) ∧ ∃ κ : K, ∀ (k : ℕ) (t n : K), u.deltaT[k]? = some t → u.nO[k]? = some n → n * t = κ := by
    intro u hu
    obtain ⟨fr, uni, unit, hr⟩ := hread u hu
    have hd : u.deltaT = u0.deltaT := by rcases List.mem_cons.1 hu with rfl | h; exacts [rfl, hdt u h]
    obtain ⟨k1, -, k3⟩ := read_const hfl hsm hc hr rfl (by show ∀ t ∈ u.deltaT, 0 < t; rw [hd]; exact hpos) (by show u.deltaT.Pairwise _; rw [hd]; exact hasc.imp fun h => h.le)
    exact ⟨k1, k3⟩
  rcases h with h | h | h
  · obtain ⟨B, hB, rfl, m'⟩ := diffusion_inv h
    rw [hsub] at m'
    obtain ⟨b0, q, i1, iq, i2, -, b1, -, i3⟩ := msdBootstrap_inv m'
    obtain ⟨e0, hn, hl, κ, hκ⟩ := pool_const hp hs hdt hone hB
    obtain ⟨⟨r1, r1'⟩, r2⟩ := recorded_aligned i1 iq i2 i3 hκ hn hl (by rw [e0]; exact hpos) (by rw [e0]; exact hasc)
    exact ⟨r1, r1', _, by rw [r2, e0]⟩
  · obtain ⟨B, hB, rfl, m'⟩ := jump_inv h
    rw [hsub] at m'
    obtain ⟨b0, q, i1, iq, i2, -, b1, -, i3⟩ := mstdBootstrap_inv m'
    obtain ⟨e0, hn, hl, κ, hκ⟩ := pool_const hp hs hdt hone hB
    obtain ⟨⟨r1, r1'⟩, r2⟩ := recorded_aligned i1 (by omega) i2 i3 hκ hn hl (by rw [e0]; exact hpos) (by rw [e0]; exact hasc)
    exact ⟨r1, r1', _, by rw [r2, e0]⟩
  · obtain ⟨B, hB, rfl, m'⟩ := conductivity_inv h
    rw [hsub] at m'
    obtain ⟨b0, q, i1, iq, i2, -, b1, -, i3⟩ := mscdBootstrap_inv m'
    obtain ⟨e0, hn, hl, κ, hκ⟩ := pool_const hp hs hdt hone hB
    obtain ⟨⟨r1, r1'⟩, r2⟩ := recorded_aligned i1 (by omega) i2 i3 hκ hn hl (by rw [e0]; exact hpos) (by rw [e0]; exact hasc)
    exact ⟨r1, r1', _, by rw [r2, e0]⟩

/-- The slope that C147 gives, before it is restricted to positive values: linear in the values. -/
def chordSlope (t : ℕ → K) (m : ℕ) : (ℕ → K) →ₗ[K] K where
  toFun y := (y 0 - weightedMean (chordWeight t) (chordIntercept t y) m) / t 0
  map_add' x y := by
    have e : weightedMean (chordWeight t) (chordIntercept t (x + y)) m = weightedMean (chordWeight t) (chordIntercept t x) m + weightedMean (chordWeight t) (chordIntercept t y) m := by
      unfold weightedMean
      rw [← add_div, ← Finset.sum_add_distrib]
      congr 1
      refine Finset.sum_congr rfl fun k _ => ?_
      unfold chordIntercept
      simp only [Pi.add_apply]
      ring
    rw [e]
    simp only [Pi.add_apply]
    ring
  map_smul' a y := by
    have e : weightedMean (chordWeight t) (chordIntercept t (a • y)) m = a * weightedMean (chordWeight t) (chordIntercept t y) m := by
      unfold weightedMean
      rw [← mul_div_assoc, Finset.mul_sum]
      congr 1
      refine Finset.sum_congr rfl fun k _ => ?_
      unfold chordIntercept
      simp only [Pi.smul_apply, smul_eq_mul]
      ring
    rw [e]
    simp only [Pi.smul_apply, smul_eq_mul, RingHom.id_apply]
    ring

/-- Fits of curves of which one is the mean of the others. -/
theorem mean_fits {b : Boot K} {bs : List (Boot K)} (hne : bs ≠ []) (hal : ∀ x ∈ b :: bs, InverseCounts x ∧ Aligned x) {r m : ℕ} (hm : m + 1 = b.n.length - r) (hm0 : 0 < m) (hlen : ∀ b' ∈ bs, b'.n.length = b.n.length)
    (hdt : ∀ b' ∈ bs, b'.dt = b.dt) (hy : ∀ i, i < b.n.length → b.n[i]? = some ((bs.map fun b' => b'.n.getD i 0).sum / (bs.length : K))) {g c : K} (hg : ModelFit b r g c) {gs : List (K × K)}
    (hgs : List.Forall₂ (fun b' e => ModelFit b' r e.1 e.2) bs gs) :
    g ≤ (gs.map Prod.fst).sum / (gs.length : K) ∧ ((∀ e ∈ gs, 0 < e.1) → g = (gs.map Prod.fst).sum / (gs.length : K) ∧ c = (gs.map Prod.snd).sum / (gs.length : K)) := by
  have hN : (0 : K) < (bs.length : K) := by exact_mod_cast List.length_pos_iff.2 hne
  have hval : valuesFrom b r = ((bs.length : K)⁻¹) • (bs.map fun b' => valuesFrom b' r).sum := by
    have hsum : ∀ (l : List (Boot K)) (i : ℕ), (l.map fun b' => valuesFrom b' r).sum i = (l.map fun b' => b'.n.getD (r + i) 0).sum := by
      intro l i
      induction l with
      | nil => rfl
      | cons x l ih => rw [List.map_cons, List.sum_cons, List.map_cons, List.sum_cons, Pi.add_apply, ih]; rfl
    funext i
    rw [Pi.smul_apply, hsum, smul_eq_mul]
    by_cases hi : r + i < b.n.length
    · unfold valuesFrom
      rw [List.getD_eq_getElem?_getD, hy _ hi, Option.getD_some, div_eq_inv_mul]
    · have : (bs.map fun b' => b'.n.getD (r + i) 0).sum = 0 := by
        refine List.sum_eq_zero fun x hx => ?_
        obtain ⟨b', hb', rfl⟩ := List.mem_map.1 hx
        rw [List.getD_eq_getElem?_getD, List.getElem?_eq_none (by rw [hlen b' hb']; omega)]
        rfl
      rw [this, mul_zero]
      unfold valuesFrom
      rw [List.getD_eq_getElem?_getD, List.getElem?_eq_none (by omega)]
      rfl
  set F := chordSlope (timesFrom b r) m with hF
  obtain ⟨q1, q2⟩ := C147_model b (hal b (by simp)) r m hm hm0 g c hg
  have q1 : g = max 0 (F (valuesFrom b r)) := q1
  have hFs : F (valuesFrom b r) = (bs.map fun b' => F (valuesFrom b' r)).sum / (bs.length : K) := by
    rw [hval, map_smul, map_list_sum, List.map_map, smul_eq_mul, div_eq_inv_mul]
    rfl
  have t0 : 0 < timesFrom b r 0 := by
    have : r < b.dt.length := by rw [(hal b (by simp)).2.1]; omega
    unfold timesFrom
    rw [List.getD_eq_getElem?_getD, Nat.add_zero, List.getElem?_eq_getElem this]
    exact (hal b (by simp)).1.2.1 _ (List.getElem_mem _)
  have key : ∀ (l : List (Boot K)) (es : List (K × K)), (∀ b' ∈ l, b' ∈ bs) → List.Forall₂ (fun b' e => ModelFit b' r e.1 e.2) l es →
      (l.map fun b' => F (valuesFrom b' r)).sum ≤ (es.map Prod.fst).sum ∧ (0 ≤ (es.map Prod.fst).sum) ∧
        ((∀ e ∈ es, 0 < e.1) → (l.map fun b' => F (valuesFrom b' r)).sum = (es.map Prod.fst).sum ∧ (es.map Prod.snd).sum = (l.map fun b' => valuesFrom b' r 0).sum - (es.map Prod.fst).sum * timesFrom b r 0) := by
    intro l es hl h
    induction h with
    | nil => simp
    | @cons b' e l es h1 h2 ih =>
      obtain ⟨i1, i2, i3⟩ := ih fun x hx => hl x (by simp [hx])
      have hb' := hl b' (by simp)
      have ht : timesFrom b' r = timesFrom b r := by unfold timesFrom; rw [hdt b' hb']
      obtain ⟨p1, p2⟩ := C147_model b' (hal b' (by simp [hb'])) r m (by rw [hlen b' hb']; exact hm) hm0 e.1 e.2 h1
      rw [ht] at p1 p2
      have p1 : e.1 = max 0 (F (valuesFrom b' r)) := p1
      simp only [List.map_cons, List.sum_cons]
      have a1 : F (valuesFrom b' r) ≤ e.1 := by rw [p1]; exact le_max_right _ _
      have a2 : 0 ≤ e.1 := by rw [p1]; exact le_max_left _ _
      refine ⟨add_le_add a1 i1, add_nonneg a2 i2, fun hpos => ?_⟩
      obtain ⟨j1, j2⟩ := i3 fun x hx => hpos x (by simp [hx])
      have he := hpos e (by simp)
      have p3 : F (valuesFrom b' r) = e.1 := by
        rcases le_total (F (valuesFrom b' r)) 0 with h0 | h0
        · rw [max_eq_left h0] at p1
          rw [p1] at he
          exact absurd he (lt_irrefl _)
        · rw [max_eq_right h0] at p1; exact p1.symm
      refine ⟨by rw [p3, j1], ?_⟩
      have p4 := (p2 he).2
      rw [j2]
      linear_combination p4
  obtain ⟨k1, k2, k3⟩ := key bs gs (fun _ h => h) hgs
  have hl : (gs.length : K) = bs.length := by rw [hgs.length_eq]
  rw [hl]
  constructor
  · rw [q1, hFs]
    exact max_le (div_nonneg k2 hN.le) (div_le_div_of_nonneg_right k1 hN.le)
  · intro hpos
    obtain ⟨j1, j2⟩ := k3 hpos
    have hspos : 0 < (gs.map Prod.fst).sum := by
      match gs, hl with
      | [], hl => simp at hl; exact absurd hl.symm hN.ne'
      | e :: gs, _ =>
        rw [List.map_cons, List.sum_cons]
        refine add_pos_of_pos_of_nonneg (hpos e (by simp)) (List.sum_nonneg fun x hx => ?_)
        obtain ⟨e', he', rfl⟩ := List.mem_map.1 hx
        exact (hpos e' (by simp [he'])).le
    have hge : g = (gs.map Prod.fst).sum / (bs.length : K) := by
      rw [q1, hFs, j1]
      exact max_eq_right (div_pos hspos hN).le
    refine ⟨hge, ?_⟩
    have e1 := (q2 (by rw [hge]; exact div_pos hspos hN)).2
    have e2 : valuesFrom b r 0 = (bs.map fun b' => valuesFrom b' r 0).sum / (bs.length : K) := by
      have := hy r (by omega)
      show b.n.getD (r + 0) 0 = _
      rw [Nat.add_zero, List.getD_eq_getElem?_getD, this]
      rfl
    rw [j2, sub_div, ← e2]
    rw [hge] at e1
    linear_combination e1

/-- **C153, pooled trajectories.** Trajectories with identical starting points and equal time intervals, each read by one of the three readers with all its frames, with equally many intervals analysed, fitted with the random
walk model and an intercept from the same interval on: the gradient of the pool is at most the mean of the gradients of the separate fits.  If these are all positive, gradient and intercept of the pool are the means. -/
theorem C153_pool {α : Type} (parse : α → PyM (Parsed K)) (pj : Option (List α → PyM (Parsed K))) (xs : List α) (u0 : Parsed K) (others : List (Parsed K)) (hp : xs.mapM parse = .ok (u0 :: others)) (m : ℕ) (N T : ℕ → ℕ)
    (hs : SameShape (u0 :: others) m N T) (hdt : ∀ u ∈ others, u.deltaT = u0.deltaT) (E : Num K) (hfl : E.fl = id) (P : Params K) (hsm : P.sampling = "multi-origin") (hc : 0 < P.stepSkip.val * P.timeStep.val) (S : Select K)
    (hread : ∀ u ∈ u0 :: others, ∃ fr uni unit, ReadFrames E P S fr uni (.ok (baseOf u)) unit) (hpos : ∀ t ∈ u0.deltaT, 0 < t) (hasc : u0.deltaT.Pairwise (· < ·)) (sq : K → K) (o : Oracle K G) (U : UncParams K)
    (hsub : U.sub = 1) (hblock : U.opt.block = false) (g₁ g₂ : G) (Z : Analyzer K) (h : diffusionAnalyzer sq o g₁ U (analyzerFrom parse pj (some "identical") (.several xs)) = .ok (Z, g₂)) (Zs : List (Analyzer K))
    (hZs : List.Forall₂ (fun u Z' => ∃ g g', diffusionAnalyzer sq o g U (.ok (baseOf u)) = .ok (Z', g')) (u0 :: others) Zs) (hlen : ∀ Z' ∈ Zs, Z'.diff.n.length = Z.diff.n.length) (r : ℕ) (hr : r + 2 ≤ Z.diff.n.length)
    (g c : K) (hg : ModelFit Z.diff r g c) (ls : List (K × K)) (hls : List.Forall₂ (fun (Z' : Analyzer K) (l : K × K) => ModelFit Z'.diff r l.1 l.2) Zs ls) :
    g ≤ (ls.map Prod.fst).sum / (ls.length : K) ∧ ((∀ l ∈ ls, 0 < l.1) → g = (ls.map Prod.fst).sum / (ls.length : K) ∧ c = (ls.map Prod.snd).sum / (ls.length : K)) := by
  obtain ⟨hi, ha, q, hq⟩ := C153_runs parse pj xs u0 others hp m N T hs hdt E hfl P hsm hc S hread hpos hasc sq o U hsub (.scalar 1) g₁ g₂ Z (.inl h)
  obtain ⟨A, hA, -, hm'⟩ := diffusion_inv h
  rw [hsub] at hm'
  have key : ∀ (us : List (Parsed K)) (zs : List (Analyzer K)), (∀ u ∈ us, u ∈ u0 :: others) → List.Forall₂ (fun u Z' => ∃ g g', diffusionAnalyzer sq o g U (.ok (baseOf u)) = .ok (Z', g')) us zs →
      List.Forall₂ (fun (u : Parsed K) b' => ∃ g g', msdBootstrap sq o U.opt g u.deltaT u.disp3d u.nO 1 U.dimension = .ok (b', g')) us (zs.map fun Z' => Z'.diff) ∧
        ∀ Z' ∈ zs, (InverseCounts Z'.diff ∧ Aligned Z'.diff) ∧ ∃ q, Z'.diff.dt = u0.deltaT.take q := by
    intro us zs hu hz
    induction hz with
    | nil => exact ⟨.nil, by simp⟩
    | @cons u Z' us zs h1 h2 ih =>
      obtain ⟨i1, i2⟩ := ih fun u hu' => hu u (by simp [hu'])
      obtain ⟨γ, γ', run⟩ := h1
      have hum := hu u (by simp)
      have hd : u.deltaT = u0.deltaT := by rcases List.mem_cons.1 hum with rfl | h; exacts [rfl, hdt u h]
      obtain ⟨fr, uni, unit, hr'⟩ := hread u hum
      obtain ⟨B, hB, eZ, hm₁⟩ := diffusion_inv run
      obtain rfl := Except.ok.inj hB
      have eT : Z'.deltaT = u0.deltaT := by rw [eZ]; exact hd
      obtain ⟨a1, q', a2⟩ := runs_aligned hfl hsm hc hr' hsub (charge := .scalar 1) (.inl run) (by rw [eT]; exact hpos) (by rw [eT]; exact hasc)
      rw [hsub] at hm₁
      refine ⟨.cons ⟨γ, γ', hm₁⟩ i1, fun z hz => ?_⟩
      rcases List.mem_cons.1 hz with rfl | hz
      · exact ⟨a1, q', by rw [a2, eT]⟩
      · exact i2 z hz
  obtain ⟨k1, k2⟩ := key _ Zs (fun _ h => h) hZs
  have hmean := C53_msd parse pj xs u0 others hp m N T hs sq o U.opt hblock 1 U.dimension A hA _ g₁ g₂ hm' _ k1
  have hne : Zs ≠ [] := by
    rintro rfl
    cases hZs
  refine mean_fits (bs := Zs.map fun Z' => Z'.diff) (by simpa using hne) ?_ (m := Z.diff.n.length - r - 1) (by omega) (by omega) ?_ ?_ ?_ hg ?_
  · intro x hx
    rcases List.mem_cons.1 hx with rfl | hx
    · exact ⟨hi, ha⟩
    · obtain ⟨z, hz, rfl⟩ := List.mem_map.1 hx
      exact (k2 z hz).1
  · intro x hx
    obtain ⟨z, hz, rfl⟩ := List.mem_map.1 hx
    exact hlen z hz
  · intro x hx
    obtain ⟨z, hz, rfl⟩ := List.mem_map.1 hx
    obtain ⟨⟨-, a1⟩, q', a2⟩ := k2 z hz
    have e1 : z.diff.dt.length = Z.diff.dt.length := by rw [a1.1, hlen z hz, ha.1]
    rw [a2, hq, List.take_eq_take_iff]
    rw [a2, hq, List.length_take, List.length_take] at e1
    exact e1
  · intro i hi'
    refine hmean i fun x hx => ?_
    obtain ⟨z, hz, rfl⟩ := List.mem_map.1 hx
    rw [hlen z hz]
    exact hi'
  · rw [List.forall₂_map_left_iff]
    exact hls

/-- **C153, several species.** As C122, fitted with the random walk model and an intercept: the gradient of both species together is at most the mean of the two gradients weighted with the numbers of atoms.  If both are positive
it is equal to it (as in C146). -/
theorem C153_species (E : Num K) (P : Params K) (S : Select K) (f : PySeq) (hS : S.framework = some f) (A B : List String) (hd : ∀ s ∈ A, s ∉ B) (sy : List String) (hA : 2 ≤ (chosen sy A).length)
    (hB : 2 ≤ (chosen sy B).length) (rd : Select K → PyM (Base K)) (hrd : Reads E P sy rd) (sq : K → K) (o : Oracle K G) (U : UncParams K) (hblock : U.opt.block = false) (γ₁ γ₁' γ₂ γ₂' γ₃ γ₃' : G) (Z₁ Z₂ Z₃ : Analyzer K)
    (h₁ : diffusionAnalyzer sq o γ₁ U (rd (withSpecies S A)) = .ok (Z₁, γ₁')) (h₂ : diffusionAnalyzer sq o γ₂ U (rd (withSpecies S B)) = .ok (Z₂, γ₂'))
    (h₃ : diffusionAnalyzer sq o γ₃ U (rd (withSpecies S (A ++ B))) = .ok (Z₃, γ₃')) (hok : ∀ z ∈ [Z₁, Z₂, Z₃], InverseCounts z.diff ∧ Aligned z.diff) (r : ℕ) (hr : r + 2 ≤ Z₃.diff.n.length) (g₁ g₂ g₃ c₁ c₂ c₃ : K)
    (e₁ : ModelFit Z₁.diff r g₁ c₁) (e₂ : ModelFit Z₂.diff r g₂ c₂) (e₃ : ModelFit Z₃.diff r g₃ c₃) :
    g₃ ≤ ((chosen sy A).length * g₁ + (chosen sy B).length * g₂) / ((chosen sy A).length + (chosen sy B).length) := by
  obtain ⟨t1, t2, -, hn, -⟩ := C122_species E P S f hS A B hd sy hA hB rd hrd sq o U hblock γ₁ γ₁' γ₂ γ₂' γ₃ γ₃' Z₁ Z₂ Z₃ h₁ h₂ h₃
  have l1 : Z₁.diff.n.length = Z₃.diff.n.length := by rw [← (hok Z₁ (by simp)).2.1, t1, (hok Z₃ (by simp)).2.1]
  have l2 : Z₂.diff.n.length = Z₃.diff.n.length := by rw [← (hok Z₂ (by simp)).2.1, t2, (hok Z₃ (by simp)).2.1]
  set p := (chosen sy A).length
  set q := (chosen sy B).length
  have hmem : ∀ x ∈ List.replicate p Z₁.diff ++ List.replicate q Z₂.diff, x = Z₁.diff ∨ x = Z₂.diff := by
    intro x hx
    rcases List.mem_append.1 hx with hx | hx
    · exact .inl (List.eq_of_mem_replicate hx)
    · exact .inr (List.eq_of_mem_replicate hx)
  have := (mean_fits (b := Z₃.diff) (bs := List.replicate p Z₁.diff ++ List.replicate q Z₂.diff) (by
      intro h0
      have := congrArg List.length h0
      simp at this
      omega) (by
      intro x hx
      rcases List.mem_cons.1 hx with rfl | hx
      · exact hok Z₃ (by simp)
      · rcases hmem x hx with rfl | rfl
        · exact hok Z₁ (by simp)
        · exact hok Z₂ (by simp)) (m := Z₃.diff.n.length - r - 1) (by omega) (by omega) (by
      intro x hx
      rcases hmem x hx with rfl | rfl
      · exact l1
      · exact l2) (by
      intro x hx
      rcases hmem x hx with rfl | rfl
      · exact t1
      · exact t2) (by
      intro i hi
      rw [hn, List.getElem?_zipWith, List.getElem?_eq_getElem (by omega : i < Z₁.diff.n.length), List.getElem?_eq_getElem (by omega : i < Z₂.diff.n.length)]
      simp [List.getElem?_eq_getElem (by omega : i < Z₁.diff.n.length), List.getElem?_eq_getElem (by omega : i < Z₂.diff.n.length)]) e₃ (gs := List.replicate p (g₁, c₁) ++ List.replicate q (g₂, c₂)) (by
      refine List.rel_append ?_ ?_
      · rw [List.forall₂_iff_get]
        exact ⟨by simp, fun i _ _ => by simpa using e₁⟩
      · rw [List.forall₂_iff_get]
        exact ⟨by simp, fun i _ _ => by simpa using e₂⟩)).1
  simpa using this

/-! ## A curve that falls -/

/-- On the boundary: with the gradient 0 and a residual that is not correlated with the times, the likelihood is highest at the mean of the values. -/
theorem exModel_flat {b : Boot ℚ} {y : List ℚ} (c : ℚ) (h1 : b.n = y) (h3 : b.nO = [6, 3, 2]) (h4 : b.dt = [6, 12, 18]) (hy : y.length = 3)
    (hN : form exModelP (fun i => exIncr [6, 12, 18] i) (lineResidual (fun i : Fin 3 => exIncr [6, 12, 18] i) (fun i => exIncr y i) 0 c) ≤ 0 ∧
      form exModelP (fun _ => 1) (lineResidual (fun i : Fin 3 => exIncr [6, 12, 18] i) (fun i => exIncr y i) 0 c) = 0) : ModelFit b 0 0 c := by
  subst h1
  have hal : InverseCounts b ∧ Aligned b := by
    refine ⟨⟨⟨36, fun k x N hx hN => ?_⟩, by rw [h4]; decide +kernel, by rw [h3]; decide +kernel⟩, by rw [hy, h4]; rfl, by rw [hy, h3]; rfl, by rw [h4]; decide +kernel⟩
    rw [h4] at hx
    rw [h3] at hN
    have hk : k < 3 := (List.getElem?_eq_some_iff.1 hx).1
    interval_cases k <;> · simp at hx hN; subst hx hN; norm_num
  have hW : ModelWeights b 0 exModelP := by
    refine ⟨36, [some 216, some 1728, some 5832], !![216, 432, 648; 432, 1728, 2592; 648, 2592, 5832], by norm_num, ok_of_toOption ?_, ok_of_toOption ?_, by decide +kernel⟩
    · rw [h3, h4]; decide +kernel
    · rw [h3]; decide +kernel
  obtain ⟨-, hpd, hsym⟩ := model_weights hal.1 hal.2 (r := 0) (by rw [hy]) hW
  set t : Fin 3 → ℚ := fun i => exIncr [6, 12, 18] i with ht
  set y : Fin 3 → ℚ := fun i => exIncr b.n i with hy'
  have hval : ∀ g' c', 0 ≤ g' → logLikelihood 0 exModelP t y [g', c'] = some (-(1 / 2) * (0 + form exModelP (lineResidual t y g' c') (lineResidual t y g' c'))) := fun g' c' h => logLikelihood_eq 0 exModelP t y [g', c'] h
  have hLL : fitLL b 0 0 exModelP = logLikelihood 0 exModelP t y := by
    unfold fitLL
    rw [List.drop_zero, List.drop_zero, h4]
    rfl
  refine ⟨3, exModelP, 0, -(1 / 2) * (0 + form exModelP (lineResidual t y 0 c) (lineResidual t y 0 c)), by rw [hy], hW, ?_, ?_⟩
  · rw [hLL]
    exact hval 0 c le_rfl
  · intro g' c' l hl
    rw [hLL] at hl
    have hg' : 0 ≤ g' := by
      by_contra hlt
      rw [(C45_negative 0 exModelP t y g' [c']).mpr (not_le.mp hlt)] at hl
      cases hl
    rw [hval g' c' hg'] at hl
    rw [← Option.some.inj hl]
    have e := form_expand exModelP hsym t y 0 c g' c'
    rw [hN.2] at e
    have h2 : 0 ≤ form exModelP (fun i => (0 - g') * t i + (c - c')) (fun i => (0 - g') * t i + (c - c')) := by
      by_cases hz : (fun i => (0 - g') * t i + (c - c')) = 0
      · rw [hz]; exact le_of_eq (by simp [form])
      · exact (hpd _ hz).le
    have h3 := mul_nonneg hg' (sub_nonneg.2 hN.1)
    nlinarith

/-- The Li atoms move one step and return. -/
def exStepsC : List (Frame ℚ) := exSteps [1, -1] [1, -1]

/-- **C153, the difference is real.** Two trajectories of three frames, read, pooled and fitted with the random walk model: the gradients are 23/120 and 0, their mean is 23/240, but the gradient of the pool is 11/144. -/
theorem C153_strict : ∃ Z Z₁ Z₂ : Analyzer ℚ, exStepsRun [exStepsA, exStepsC] = .ok (Z, ()) ∧ exStepsRun [exStepsA] = .ok (Z₁, ()) ∧ exStepsRun [exStepsC] = .ok (Z₂, ()) ∧ ModelFit Z₁.diff 0 (23 / 120) (-13 / 20) ∧
    ModelFit Z₂.diff 0 0 (33 / 46) ∧ ModelFit Z.diff 0 (11 / 144) (1 / 8) ∧ (11 / 144 : ℚ) < (23 / 120 + 0) / 2 := by
  obtain ⟨Z₁, e₁, n₁, v₁, o₁, t₁⟩ := exSteps_values (x := exStepsRun [exStepsA]) (y := [1 / 2, 7 / 4, 5 / 2]) (v := [1 / 20, 3 / 4, 9 / 4]) (n := [6, 3, 2]) (by decide +kernel)
  obtain ⟨Z₂, e₂, n₂, v₂, o₂, t₂⟩ := exSteps_values (x := exStepsRun [exStepsC]) (y := [2 / 3, 1 / 2, 0]) (v := [2 / 45, 1 / 9, 0]) (n := [6, 3, 2]) (by decide +kernel)
  obtain ⟨Z, e, n, v, o, t⟩ := exSteps_values (x := exStepsRun [exStepsA, exStepsC]) (y := [7 / 12, 9 / 8, 5 / 4]) (v := [35 / 1584, 29 / 112, 43 / 48]) (n := [12, 6, 4]) (by decide +kernel)
  exact ⟨Z, Z₁, Z₂, e, e₁, e₂, (exModel_one (23 / 120) (-13 / 20) n₁ o₁ t₁ rfl (by norm_num) (by decide +kernel)).2, exModel_flat (33 / 46) n₂ o₂ t₂ rfl (by decide +kernel),
    (exModel_two (11 / 144) (1 / 8) n o t rfl (by norm_num) (by decide +kernel)).2, by norm_num⟩

theorem exParsed_base {fr : List (Frame ℚ)} {u : Parsed ℚ} (h : aseParser exNum exParams exSelect 1 fr = .ok u) : Except.ok (baseOf u) = fromAse exNum exParams exSelect 1 none (.one fr) := by
  unfold fromAse analyzerFrom
  simp [Traj.asOne, h, bind, Except.bind]

/-- `C153_runs` and `C153_pool` on the two trajectories of `C153_strict`. -/
example : ∃ Z Z₁ Z₂ : Analyzer ℚ, exStepsRun [exStepsA, exStepsC] = .ok (Z, ()) ∧ diffusionAnalyzer id (exOracle ℚ) () exUnc (fromAse exNum exParams exSelect 1 none (.one exStepsA)) = .ok (Z₁, ()) ∧
    diffusionAnalyzer id (exOracle ℚ) () exUnc (fromAse exNum exParams exSelect 1 none (.one exStepsC)) = .ok (Z₂, ()) ∧ (InverseCounts Z.diff ∧ Aligned Z.diff) ∧ ModelFit Z₁.diff 0 (23 / 120) (-13 / 20) ∧ ModelFit Z₂.diff 0 0 (33 / 46) ∧
    ∀ g c, ModelFit Z.diff 0 g c → g ≤ (23 / 120 + 0) / 2 := by
  obtain ⟨u, b₁, p₁, s₁, d₁, -⟩ := exSteps_parsed (x := aseParser exNum exParams exSelect 1 exStepsA) (y := [1 / 2, 7 / 4, 5 / 2]) (v := [1 / 20, 3 / 4, 9 / 4]) (n := [6, 3, 2])
    (by decide +kernel) (by decide +kernel) (by decide +kernel)
  obtain ⟨u', b₂, p₂, s₂, d₂, -⟩ := exSteps_parsed (x := aseParser exNum exParams exSelect 1 exStepsC) (y := [2 / 3, 1 / 2, 0]) (v := [2 / 45, 1 / 9, 0]) (n := [6, 3, 2])
    (by decide +kernel) (by decide +kernel) (by decide +kernel)
  obtain ⟨Z₁, e₁, n₁, v₁, o₁, t₁⟩ := exSteps_values (x := diffusionAnalyzer id (exOracle ℚ) () exUnc (fromAse exNum exParams exSelect 1 none (.one exStepsA))) (y := [1 / 2, 7 / 4, 5 / 2])
    (v := [1 / 20, 3 / 4, 9 / 4]) (n := [6, 3, 2]) (by decide +kernel)
  obtain ⟨Z₂, e₂, n₂, v₂, o₂, t₂⟩ := exSteps_values (x := diffusionAnalyzer id (exOracle ℚ) () exUnc (fromAse exNum exParams exSelect 1 none (.one exStepsC))) (y := [2 / 3, 1 / 2, 0]) (v := [2 / 45, 1 / 9, 0])
    (n := [6, 3, 2]) (by decide +kernel)
  obtain ⟨Z, e, n, v, o, t⟩ := exSteps_values (x := exStepsRun [exStepsA, exStepsC]) (y := [7 / 12, 9 / 8, 5 / 4]) (v := [35 / 1584, 29 / 112, 43 / 48]) (n := [12, 6, 4]) (by decide +kernel)
  have hp : [exStepsA, exStepsC].mapM (aseParser exNum exParams exSelect 1) = .ok [u, u'] := by
    simp [List.mapM_cons, p₁, p₂, bind, Except.bind, pure, Except.pure]
  have hs : SameShape [u, u'] 3 (fun _ => 2) (fun i => 3 - i) := by
    intro w hw
    rcases List.mem_cons.1 hw with rfl | hw
    · exact s₁ _ (by simp)
    · exact s₂ _ hw
  have hd : ∀ w ∈ [u'], w.deltaT = u.deltaT := by
    intro w hw
    obtain rfl := List.mem_singleton.1 hw
    rw [d₁, d₂]
  have hread : ∀ w ∈ [u, u'], ∃ fr uni unit, ReadFrames exNum exParams exSelect fr uni (.ok (baseOf w)) unit := by
    intro w hw
    simp only [List.mem_cons, List.not_mem_nil, or_false] at hw
    rcases hw with rfl | rfl
    · exact ⟨exStepsA, ([], []), 1, .inl ⟨exParsed_base p₁, rfl⟩⟩
    · exact ⟨exStepsC, ([], []), 1, .inl ⟨exParsed_base p₂, rfl⟩⟩
  have f₁ := (exModel_one (23 / 120) (-13 / 20) n₁ o₁ t₁ rfl (by norm_num) (by decide +kernel)).2
  have f₂ := exModel_flat (33 / 46) n₂ o₂ t₂ rfl (by decide +kernel)
  have run := C153_runs (aseParser exNum exParams exSelect 1) _ [exStepsA, exStepsC] u [u'] hp 3 _ _ hs hd exNum rfl exParams rfl (by decide +kernel) exSelect hread (by rw [d₁]; decide +kernel) (by rw [d₁]; decide +kernel)
    id (exOracle ℚ) exUnc rfl (.scalar 1) () () Z (.inl e)
  refine ⟨Z, Z₁, Z₂, e, e₁, e₂, ⟨run.1, run.2.1⟩, f₁, f₂, fun g c h => ?_⟩
  have := (C153_pool (aseParser exNum exParams exSelect 1) _ [exStepsA, exStepsC] u [u'] hp 3 _ _ hs hd exNum rfl exParams rfl (by decide +kernel) exSelect hread (by rw [d₁]; decide +kernel) (by rw [d₁]; decide +kernel)
    id (exOracle ℚ) exUnc rfl rfl () () Z e [Z₁, Z₂] (.cons ⟨(), (), by rw [exParsed_base p₁]; exact e₁⟩ (.cons ⟨(), (), by rw [exParsed_base p₂]; exact e₂⟩ .nil)) (by
      intro z hz
      simp only [List.mem_cons, List.not_mem_nil, or_false] at hz
      rcases hz with rfl | rfl
      · rw [n₁, n]; rfl
      · rw [n₂, n]; rfl) 0 (by rw [n]; decide) g c h [(23 / 120, -13 / 20), (0, 33 / 46)] (.cons f₁ (.cons f₂ .nil))).1
  simpa using this

/-- `C153_species` on the Li and Na atoms of C145. -/
example : ∃ Z₁ Z₂ Z₃ : Analyzer ℚ, exStepsSpecies ["Li"] = .ok (Z₁, ()) ∧ exStepsSpecies ["Na"] = .ok (Z₂, ()) ∧ exStepsSpecies (["Li"] ++ ["Na"]) = .ok (Z₃, ()) ∧
    ModelFit Z₁.diff 0 (23 / 120) (-13 / 20) ∧ ModelFit Z₂.diff 0 (53 / 72) (-11 / 4) ∧ ∀ g c, ModelFit Z₃.diff 0 g c → g ≤ (2 * (23 / 120) + 2 * (53 / 72)) / (2 + 2) := by
  obtain ⟨Z₁, e₁, n₁, v₁, o₁, t₁⟩ := exSteps_values (x := exStepsSpecies ["Li"]) (y := [1 / 2, 7 / 4, 5 / 2]) (v := [1 / 20, 3 / 4, 9 / 4]) (n := [6, 3, 2]) (by decide +kernel)
  obtain ⟨Z₂, e₂, n₂, v₂, o₂, t₂⟩ := exSteps_values (x := exStepsSpecies ["Na"]) (y := [5 / 3, 25 / 4, 10]) (v := [26 / 45, 59 / 4, 36]) (n := [6, 3, 2]) (by decide +kernel)
  obtain ⟨Z₃, e, n, v, o, t⟩ := exSteps_values (x := exStepsSpecies (["Li"] ++ ["Na"])) (y := [13 / 12, 4, 25 / 4]) (v := [25 / 144, 30 / 7, 177 / 16]) (n := [12, 6, 4]) (by decide +kernel)
  obtain ⟨i₁, f₁⟩ := exModel_one (23 / 120) (-13 / 20) n₁ o₁ t₁ rfl (by norm_num) (by decide +kernel)
  obtain ⟨i₂, f₂⟩ := exModel_one (53 / 72) (-11 / 4) n₂ o₂ t₂ rfl (by norm_num) (by decide +kernel)
  obtain ⟨i₃, f₃⟩ := exModel_two (167 / 360) (-17 / 10) n o t rfl (by norm_num) (by decide +kernel)
  refine ⟨Z₁, Z₂, Z₃, e₁, e₂, e, f₁, f₂, fun g c h => ?_⟩
  have := C153_species exNum exParams exMixedSelect _ rfl ["Li"] ["Na"] (by decide) ["Li", "Na", "Li", "O", "Na"] (by decide) (by decide)
    (fun S => fromAse exNum exParams S 1 none (.one exStepsMixed)) (.ase 1 exStepsMixed (by simp [exStepsMixed])) id (exOracle ℚ) exUnc rfl () () () () () () Z₁ Z₂ Z₃ e₁ e₂ e (by
      intro x hx
      simp only [List.mem_cons, List.not_mem_nil, or_false] at hx
      rcases hx with rfl | rfl | rfl
      · exact i₁
      · exact i₂
      · exact i₃) 0 (by rw [n]; decide) _ _ g _ _ c f₁ f₂ h
  rw [show (chosen ["Li", "Na", "Li", "O", "Na"] ["Li"]).length = 2 from by decide, show (chosen ["Li", "Na", "Li", "O", "Na"] ["Na"]).length = 2 from by decide] at this
  norm_num at this ⊢
  exact this

end Kinisi

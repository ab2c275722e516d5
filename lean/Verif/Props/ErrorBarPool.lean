import Verif.Props.ErrorBarTotal
import Verif.Props.PoolModel

/-!
# C161: the error bar of the diffusion coefficient from several trajectories

Trajectories with identical starting points are pooled (`dtype='identical'`).  If all their atoms are independent random walkers, the fit of the pooled MSD has the properties of C158 with the number of all atoms.
-/

set_option linter.unusedSectionVars false
set_option linter.unusedVariables false

open MeasureTheory ProbabilityTheory Kinisi.Spec

namespace Kinisi

variable {Ω : Type} [MeasurableSpace Ω] {μ : Measure Ω} [IsProbabilityMeasure μ] {G : Type}

/-- `B` holds all intervals of a trajectory of `F` frames as it truly moved; `c` is the time between two frames. -/
structure AllRead (L : M3 ℝ) (u : ℕ → ℕ → V3 ℝ) (fw atoms : List ℕ) (F : ℕ) (c : ℝ) (B : Base ℝ) : Prop where
  deltaT : B.deltaT = (List.range F).map fun i => ((i + 1 : ℕ) : ℝ) * c
  disp : B.disp3d.length = F
  count : B.nO.length = F
  volume : ∃ V, B.volume = some V
  entry : ∀ i < F, ∃ a, B.disp3d[i]? = some a ∧ TrueWindows L u fw atoms F (i + 1) a ∧ B.nO[i]? = some ((atoms.length : ℝ) * ((F : ℝ) / ((i + 1 : ℕ) : ℝ)))

/-- What a reader parses from a single trajectory with two or more atoms. -/
theorem single_read {E : Num ℝ} {P : Params ℝ} {S : Select ℝ} {sy : List String} {atoms fw : List ℕ} (hS : Picks S sy atoms fw) (hN : 2 ≤ atoms.length) (hP : DefaultGrid E P) {F : ℕ} (hF : 2 ≤ F)
    (hn : (F : ℤ) ≤ P.nSteps) {L : M3 ℝ} {V : ℝ} {u : ℕ → ℕ → V3 ℝ} {m : ℕ → ℕ → Fin 3 → ℤ} (hstep : ∀ i < sy.length, ∀ j, j + 1 < F → HalfCell fun k => u i (j + 1) k - u i j k)
    {base : PyM (Base ℝ)} {unit : ℝ} (hbase : ReadFrom E P S F sy L V u m base unit) {B : Base ℝ} (hB : base = .ok B) :
    0 < P.stepSkip.val * P.timeStep.val / unit ∧ AllRead L u fw atoms F (P.stepSkip.val * P.timeStep.val / unit) B := by
  have hu : 0 < unit := by rcases hbase with ⟨-, rfl⟩ | ⟨-, rfl⟩ | ⟨-, rfl⟩ <;> norm_num
  have hc : 0 < P.stepSkip.val * P.timeStep.val / unit := div_pos hP.2.1 hu
  obtain ⟨taus, -, ht⟩ := read_base hS hP hF hstep hbase hB
  have := ht.full hn
  subst this
  have ed : B.deltaT = (List.range F).map fun i => ((i + 1 : ℕ) : ℝ) * (P.stepSkip.val * P.timeStep.val / unit) := by
    rw [ht.deltaT, List.map_map]
    refine List.map_congr_left fun i _ => ?_
    simp only [Function.comp]
    ring
  have hl : B.disp3d.length = F := by
    have := ht.windows.length_eq
    rw [resolved_pair hN, List.length_map, List.length_range] at this
    exact this.symm
  obtain ⟨-, c2, -⟩ := read_count hP.1 hP.2.2.2.2.2 hP.2.1 hbase hB (by
      intro t ht'
      rw [ed] at ht'
      obtain ⟨i, -, rfl⟩ := List.mem_map.1 ht'
      positivity) (by
      rw [ed]
      exact List.pairwise_lt_range.map _ fun i j hij => mul_le_mul_of_nonneg_right (by exact_mod_cast (by omega : i + 1 ≤ j + 1)) hc.le)
  refine ⟨hc, ed, hl, c2.trans hl, ⟨V, ht.volume⟩, fun i hi => ?_⟩
  obtain ⟨-, -, a, k0, ha, hno⟩ := base_entry hP hbase hB ht hF (τ := i + 1) (by omega) (by omega) (by
      rw [resolved_pair hN, Nat.add_sub_cancel, List.getElem?_map, List.getElem?_range hi]
      rfl)
  rw [Nat.add_sub_cancel] at k0 hno
  exact ⟨a, k0, ha, hno⟩

/-- What `MSDBootstrap` makes of it. -/
theorem lists_of_read {L : M3 ℝ} {u : ℕ → ℕ → V3 ℝ} {fw atoms : List ℕ} (hN : 2 ≤ atoms.length) {F : ℕ} {c : ℝ} (hc : 0 < c) {B : Base ℝ} (hB : AllRead L u fw atoms F c B)
    {sq : ℝ → ℝ} (hsq : IsSqrt sq) {o : Oracle ℝ G} {U : UncParams ℝ} (hblock : U.opt.block = false) (hsub : U.sub = 1) {g g' : G} {b : Boot ℝ}
    (hm : msdBootstrap sq o U.opt g B.deltaT B.disp3d B.nO U.sub U.dimension = .ok (b, g')) :
    ((InverseCounts b ∧ Aligned b) ∧ b.v.length = b.n.length ∧ b.n.length = F) ∧ ∀ i < F, ∃ a, TrueWindows L u fw atoms F (i + 1) a ∧ b.dt[i]? = some (((i + 1 : ℕ) : ℝ) * c) ∧
      b.nO[i]? = some ((atoms.length : ℝ) * ((F : ℝ) / ((i + 1 : ℕ) : ℝ))) ∧ b.n[i]? = some (reportedMsd (axesOf U.dimension) L u fw atoms F (i + 1)) ∧
      b.v[i]? = some (some (varOn (pairs a) (sqLen (axesOf U.dimension) a) / ((atoms.length : ℝ) * ((F : ℝ) / ((i + 1 : ℕ) : ℝ))))) := by
  obtain ⟨ed, hd, hno, ⟨V, hV⟩, hent⟩ := hB
  have hN0 : (0 : ℝ) < atoms.length := by exact_mod_cast (by omega : 0 < atoms.length)
  have hpath : PathBase L V u fw atoms F (fun τ => (τ : ℝ) * c) ((List.range F).map fun i => i + 1) B := by
    refine ⟨?_, hV, by rw [ed, List.map_map]; rfl, ?_⟩
    · intro τ hτ
      obtain ⟨i, hi, rfl⟩ := List.mem_map.1 hτ
      rw [List.mem_range] at hi
      omega
    · rw [resolved_pair hN, List.forall₂_iff_get]
      refine ⟨by simp [hd], fun i h1 h2 => ?_⟩
      obtain ⟨a, k0, ha, -⟩ := hent i (by omega)
      have : B.disp3d.get ⟨i, h2⟩ = a := by
        rw [List.get_eq_getElem]
        exact (List.getElem?_eq_some_iff.1 k0).2
      rw [this]
      simpa using ha
  obtain ⟨e1, e2⟩ := msd_of_path hpath (List.pairwise_lt_range.map _ fun i j hij => by omega) hblock hsub hm
  rw [resolved_pair hN, List.map_map] at e1 e2
  have hl : b.n.length = F := by rw [e1, List.length_map, List.length_range]
  have hpos : ∀ n ∈ B.nO, 0 < n := by
    intro n hn
    obtain ⟨i, hi, rfl⟩ := List.mem_iff_getElem.1 hn
    obtain ⟨a, -, -, h⟩ := hent i (by omega)
    rw [(List.getElem?_eq_some_iff.1 h).2]
    have : (0 : ℝ) < F := by exact_mod_cast (by omega : 0 < F)
    positivity
  obtain ⟨-, -, -, -, -, ds, k1, k2⟩ := C32_variance sq hsq o U.opt hblock _ _ _ _ _ hpos _ _ _ hm
  rw [hsub] at k1 hm
  obtain rfl : B.disp3d = ds := Except.ok.inj ((pyStride_one _).symm.trans k1)
  obtain ⟨b0, q, i1, iq, i2, -, b1, -, i3⟩ := msdBootstrap_inv hm
  have hq : q = F := by rw [← hl, i2.ln]
  obtain ⟨r1, -⟩ := recorded_aligned i1 iq i2 i3 (κ := (atoms.length : ℝ) * F * c) (by
      intro k t n ht hn
      have hk : k < F := by
        have := (List.getElem?_eq_some_iff.1 hn).1
        omega
      obtain ⟨a, -, -, h⟩ := hent k hk
      rw [h] at hn
      rw [ed, List.getElem?_map, List.getElem?_range hk] at ht
      obtain rfl := Option.some.inj hn
      obtain rfl := Option.some.inj ht
      have : ((k + 1 : ℕ) : ℝ) ≠ 0 := by positivity
      field_simp) hpos (hno.trans hd.symm) (by
      intro t ht
      rw [ed] at ht
      obtain ⟨i, -, rfl⟩ := List.mem_map.1 ht
      positivity) (by
      rw [ed]
      exact List.pairwise_lt_range.map _ fun i j hij => mul_lt_mul_of_pos_right (by exact_mod_cast (by omega : i + 1 < j + 1)) hc)
  refine ⟨⟨r1, by rw [i2.lv, i2.ln], hl⟩, fun i hi => ?_⟩
  obtain ⟨a, k0, ha, h⟩ := hent i hi
  refine ⟨a, ha, ?_, ?_, ?_, ?_⟩
  · rw [e2, List.getElem?_map, List.getElem?_range hi]
    rfl
  · rw [i3]
    show (B.nO.take q)[i]? = _
    rw [List.getElem?_take, if_pos (by omega), h]
  · rw [e1, List.getElem?_map, List.getElem?_range hi]
    rfl
  · obtain ⟨a', no, s, f1, f2, f3, -⟩ := k2 i (by omega)
    rw [k0] at f1
    rw [h] at f2
    rw [f3, ← Option.some.inj f1, ← Option.some.inj f2]

/-! ## The pool as one trajectory -/

/-- The paths of infinitely many particles with the steps `ξ`. -/
noncomputable def poolPath (ξ : ℕ × ℕ × Fin 3 → Ω → ℝ) (ω : Ω) (i j : ℕ) : V3 ℝ := fun l => ∑ s ∈ Finset.range j, ξ (i, s, l) ω

theorem poolPath_step (ξ : ℕ × ℕ × Fin 3 → Ω → ℝ) (i j : ℕ) (l : Fin 3) (ω : Ω) : walkStep unitCell (poolPath ξ) [] i j l ω = ξ (i, j, l) ω := by
  have hc : ∀ s : V3 ℝ, cart unitCell s l = s l := by
    intro s
    unfold cart unitCell
    simp
  simp only [walkStep, trueMove, meanOver, hc, poolPath]
  rw [Finset.sum_range_succ]
  simp

theorem poolPath_move {ξ : ℕ × ℕ × Fin 3 → Ω → ℝ} {L : M3 ℝ} {u : Ω → ℕ → ℕ → V3 ℝ} {fw : List ℕ} {i p : ℕ} (hξ : ∀ j l ω, walkStep L u fw i j l ω = ξ (p, j, l) ω) (s n : ℕ) (l : Fin 3) (ω : Ω) :
    trueMove unitCell (poolPath ξ ω) [] p s (s + n) l = trueMove L (u ω) fw i s (s + n) l := by
  rw [trueMove_steps, trueMove_steps]
  exact Finset.sum_congr rfl fun j _ => by rw [poolPath_step, hξ]

/-- `base` is what one of the three readers makes of `k` trajectories, passed as a list with `dtype='identical'`. -/
def ReadPool (E : Num ℝ) (P : Params ℝ) (S : Select ℝ) (F : ℕ) (sy : List String) (k : ℕ) (L : ℕ → M3 ℝ) (V : ℕ → ℝ) (u : ℕ → ℕ → ℕ → V3 ℝ) (m : ℕ → ℕ → ℕ → Fin 3 → ℤ) (base : PyM (Base ℝ)) (unit : ℝ) : Prop :=
  base = fromAse E P S 1 (some "identical") (.several ((List.range k).map fun t => wrapped F sy (L t) (V t) (u t) (m t))) ∧ unit = 1 ∨
    base = fromPymatgen E P S 1 (some "identical") (.several ((List.range k).map fun t => wrapped F sy (L t) (V t) (u t) (m t))) ∧ unit = 1000 ∨
    base = fromUniverse E P S 1 1 (some "identical") (.several ((List.range k).map fun t => wrappedMda F sy (L t) (V t) (u t) (m t))) ∧ unit = 1

theorem pool_parsed {α : Type} {parse : α → PyM (Parsed ℝ)} {pj : Option (List α → PyM (Parsed ℝ))} {k : ℕ} {x : ℕ → α} {B : Base ℝ}
    (h : analyzerFrom parse pj (some "identical") (.several ((List.range k).map x)) = .ok B) :
    ∃ us, ((List.range k).map x).mapM parse = .ok us ∧ us.length = k ∧ ∀ t p, us[t]? = some p → analyzerFrom parse pj none (.one (x t)) = .ok (baseOf p) := by
  unfold analyzerFrom at h
  simp only [if_true, Traj.asList, bind, Except.bind] at h
  split at h
  · cases h
  · rename_i us hus
    obtain ⟨l1, l2⟩ := mapM_ok_inv hus
    rw [List.length_map, List.length_range] at l1
    refine ⟨us, hus, l1, fun t p ht => ?_⟩
    have htk : t < k := by
      rw [← l1]
      exact (List.getElem?_eq_some_iff.1 ht).1
    obtain ⟨y, h1, h2⟩ := l2 t (x t) (by rw [List.getElem?_map, List.getElem?_range htk]; rfl)
    rw [ht] at h2
    obtain rfl := Option.some.inj h2
    simp only [analyzerFrom, Traj.asOne, bind, Except.bind, h1]

theorem readPool_parsed {E : Num ℝ} {P : Params ℝ} {S : Select ℝ} {F : ℕ} {sy : List String} {k : ℕ} {L : ℕ → M3 ℝ} {V : ℕ → ℝ} {u : ℕ → ℕ → ℕ → V3 ℝ} {m : ℕ → ℕ → ℕ → Fin 3 → ℤ} {base : PyM (Base ℝ)} {unit : ℝ}
    (h : ReadPool E P S F sy k L V u m base unit) {B : Base ℝ} (hB : base = .ok B) :
    ∃ (α : Type) (parse : α → PyM (Parsed ℝ)) (pj : Option (List α → PyM (Parsed ℝ))) (xs : List α) (us : List (Parsed ℝ)), analyzerFrom parse pj (some "identical") (.several xs) = .ok B ∧
      xs.mapM parse = .ok us ∧ us.length = k ∧ ∀ t p, us[t]? = some p → ReadFrom E P S F sy (L t) (V t) (u t) (m t) (.ok (baseOf p)) unit := by
  rcases h with ⟨rfl, e⟩ | ⟨rfl, e⟩ | ⟨rfl, e⟩
  · obtain ⟨us, h1, h2, h3⟩ := pool_parsed hB
    exact ⟨_, _, _, _, us, hB, h1, h2, fun t p ht => .inl ⟨(h3 t p ht).symm, e⟩⟩
  · obtain ⟨us, h1, h2, h3⟩ := pool_parsed hB
    exact ⟨_, _, _, _, us, hB, h1, h2, fun t p ht => .inr (.inl ⟨(h3 t p ht).symm, e⟩)⟩
  · obtain ⟨us, h1, h2, h3⟩ := pool_parsed hB
    exact ⟨_, _, _, _, us, hB, h1, h2, fun t p ht => .inr (.inr ⟨(h3 t p ht).symm, e⟩)⟩

theorem same_shape {L : ℕ → M3 ℝ} {u : ℕ → ℕ → ℕ → V3 ℝ} {fw atoms : List ℕ} {F : ℕ} {c : ℝ} {us : List (Parsed ℝ)} (hus : ∀ t p, us[t]? = some p → AllRead (L t) (u t) fw atoms F c (baseOf p)) :
    SameShape us F (fun _ => atoms.length) (fun i => F - (i + 1) + 1) := by
  intro p hp
  obtain ⟨t, ht⟩ := List.mem_iff_getElem?.1 hp
  have hr := hus t p ht
  refine ⟨hr.disp, hr.count, fun i a ha => ?_⟩
  have hi : i < F := by
    rw [← hr.disp]
    exact (List.getElem?_eq_some_iff.1 ha).1
  obtain ⟨a', k0, w, -⟩ := hr.entry i hi
  have : a' = a := Option.some.inj (k0.symm.trans ha)
  subst this
  exact ⟨w.1, w.2.1⟩

/-- The pool of `k` trajectories holds the paths of all their atoms. -/
theorem pool_read {ξ : ℕ × ℕ × Fin 3 → Ω → ℝ} {k F : ℕ} (hk : 1 ≤ k) {L : ℕ → M3 ℝ} {u : Ω → ℕ → ℕ → ℕ → V3 ℝ} {fw atoms : List ℕ}
    (hξ : ∀ t < k, ∀ s, (hs : s < atoms.length) → ∀ j l ω, walkStep (L t) (fun ω => u ω t) fw atoms[s] j l ω = ξ (t * atoms.length + s, j, l) ω) {c : ℝ} {ω : Ω}
    {α : Type} {parse : α → PyM (Parsed ℝ)} {pj : Option (List α → PyM (Parsed ℝ))} {xs : List α} {us : List (Parsed ℝ)} (hp : xs.mapM parse = .ok us) (hlen : us.length = k)
    (hus : ∀ t p, us[t]? = some p → AllRead (L t) (u ω t) fw atoms F c (baseOf p)) {B : Base ℝ} (hB : analyzerFrom parse pj (some "identical") (.several xs) = .ok B) :
    AllRead unitCell (poolPath ξ ω) [] (List.range (k * atoms.length)) F c B := by
  obtain ⟨u0, others, rfl⟩ : ∃ u0 others, us = u0 :: others := by
    cases us with
    | nil => simp at hlen; omega
    | cons a l => exact ⟨a, l, rfl⟩
  have hmem : ∀ p ∈ u0 :: others, ∃ t, (u0 :: others)[t]? = some p := fun p hp => List.mem_iff_getElem?.1 hp
  have hshape := same_shape hus
  obtain ⟨A, hA, hT, hV, l1, l2, hd, hn⟩ := C53_pool parse pj xs u0 others hp F _ _ hshape
  rw [hB] at hA
  obtain rfl := Except.ok.inj hA
  have h0 := hus 0 u0 rfl
  refine ⟨hT.trans h0.deltaT, l1, l2, ?_, fun i hi => ?_⟩
  · rw [hV]
    exact h0.volume
  · obtain ⟨p, hpi, hcat⟩ := hd i hi
    have hfm : ((u0 :: others).filterMap fun u => u.disp3d[i]?) = (u0 :: others).map fun u => u.disp3d.getD i ⟨0, 0, fun _ _ _ => 0⟩ := by
      rw [← List.filterMap_eq_map]
      refine List.filterMap_congr fun p hp => ?_
      obtain ⟨t, ht⟩ := hmem p hp
      obtain ⟨a, k0, -, -⟩ := (hus t p ht).entry i hi
      have k0 : p.disp3d[i]? = some a := k0
      simp only [Function.comp, List.getD_eq_getElem?_getD, k0, Option.getD_some]
    rw [hfm] at hcat
    obtain ⟨c0, c1, cg⟩ := hcat
    rw [List.length_map, hlen] at c0
    refine ⟨p, hpi, ⟨by rw [c0, List.length_range], c1, ?_⟩, ?_⟩
    · intro s hs
      rw [List.length_range] at hs
      rw [List.getElem_range]
      have hn0 : 0 < atoms.length := Nat.pos_of_ne_zero fun h => by simp [h] at hs
      obtain ⟨t, r, ht, hr, rfl⟩ : ∃ t r, t < k ∧ r < atoms.length ∧ s = t * atoms.length + r :=
        ⟨s / atoms.length, s % atoms.length, Nat.div_lt_of_lt_mul (by rw [Nat.mul_comm]; exact hs), Nat.mod_lt _ hn0, by rw [Nat.mul_comm]; exact (Nat.div_add_mod _ _).symm⟩
      obtain ⟨q, hq⟩ : ∃ q, (u0 :: others)[t]? = some q := ⟨_, List.getElem?_eq_getElem (by omega)⟩
      obtain ⟨a, k0, w, -⟩ := (hus t q hq).entry i hi
      have k0 : q.disp3d[i]? = some a := k0
      have hget := cg t a (by rw [List.getElem?_map, hq, Option.map_some, List.getD_eq_getElem?_getD, k0]; rfl) r hr
      obtain ⟨w1, w2⟩ := w.2.2 r hr
      refine ⟨fun l => ?_, fun x hx l => ?_⟩
      · rw [hget, w1]
        have := poolPath_move (u := fun ω => u ω t) (hξ t ht r hr) 0 (i + 1 - 1) l ω
        rw [Nat.zero_add] at this
        exact this.symm
      · rw [hget, w2 x hx]
        exact (poolPath_move (u := fun ω => u ω t) (hξ t ht r hr) x (i + 1) l ω).symm
    · rw [hn i hi]
      have : ((u0 :: others).map fun u => u.nO.getD i 0) = (u0 :: others).map fun _ => (atoms.length : ℝ) * ((F : ℝ) / ((i + 1 : ℕ) : ℝ)) := by
        refine List.map_congr_left fun p hp => ?_
        obtain ⟨t, ht⟩ := hmem p hp
        obtain ⟨a, -, -, e⟩ := (hus t p ht).entry i hi
        have e : p.nO[i]? = some ((atoms.length : ℝ) * ((F : ℝ) / ((i + 1 : ℕ) : ℝ))) := e
        rw [List.getD_eq_getElem?_getD, e]
        rfl
      rw [this, List.map_const', List.sum_replicate, hlen, List.length_range, nsmul_eq_mul]
      push_cast
      congr 1
      ring

/-! ## C161 -/

/-- **C161.** `k` trajectories of `F` frames, each with its own cell, are pooled (`dtype='identical'`).  All their atoms, relative to the framework of their trajectory, make independent normal steps of variance `σ²` along every axis.  The fit of the pooled MSD with the
random walk model then has the properties of C158 for `k N` atoms: the coefficient and the gradient are on average those of the walk, apart from factors that tend to 1, and the variance that the samples of the gradient have is on average between the true variance of the
gradient and 3/2 of it, apart from such factors. -/
theorem C161_pool (μ : Measure Ω) [IsProbabilityMeasure μ] (E : Num ℝ) (P : Params ℝ) (S : Select ℝ) (sy : List String)
    (atoms fw : List ℕ) (hS : Picks S sy atoms fw) (hN : 2 ≤ atoms.length) (hP : DefaultGrid E P) (F : ℕ)
    (hn : (F : ℤ) ≤ P.nSteps) (k : ℕ) (hk : 1 ≤ k) (L : ℕ → M3 ℝ) (V : ℕ → ℝ) (u : Ω → ℕ → ℕ → ℕ → V3 ℝ) (m : Ω → ℕ → ℕ → ℕ → Fin 3 → ℤ)
    (hstep : ∀ ω, ∀ t < k, ∀ i < sy.length, ∀ j, j + 1 < F → HalfCell fun x => u ω t i (j + 1) x - u ω t i j x)
    (ξ : ℕ × ℕ × Fin 3 → Ω → ℝ) (h : RandomWalk μ ξ) (σ : ℝ) (hs : NormalMoments μ ξ σ)
    (hξ : ∀ t < k, ∀ s, (hs : s < atoms.length) → ∀ j l ω, walkStep (L t) (fun ω => u ω t) fw atoms[s] j l ω = ξ (t * atoms.length + s, j, l) ω)
    (sq : ℝ → ℝ) (hsq : IsSqrt sq) (o : Oracle ℝ G) (U : UncParams ℝ) (hblock : U.opt.block = false) (hsub : U.sub = 1)
    (base : Ω → PyM (Base ℝ)) (unit : ℝ) (hbase : ∀ ω, ReadPool E P S F sy k L V (u ω) (m ω) (base ω) unit) (g g' : Ω → G)
    (Z : Ω → Analyzer ℝ) (hZ : ∀ ω, diffusionAnalyzer sq o (g ω) U (base ω) = .ok (Z ω, g' ω)) (r : ℕ) (h3 : 3 * (r + 1) ≤ F)
    (lib : Ω → GlsLib ℝ) (hlib : ∀ ω, LeastSquares (lib ω)) (α : Ω → ℝ)
    (hα : ∀ ω, (lib ω).curveFit ((Z ω).diff.nO.drop r) ((Z ω).diff.dt.drop r) ((Z ω).diff.v.drop r) = .ok (α ω)) :
    let M : ℝ := k * atoms.length
    let c := P.stepSkip.val * P.timeStep.val / unit
    let A := axesOf U.dimension
    let γ := fun ω => valuesFrom (Z ω).diff r 0 / timesFrom (Z ω).diff r 0
    let s := fun ω => α ω / (Z ω).diff.nO.getD r 0
    (Integrable α μ ∧ (1 - 1 / M) * (1 - 7 / (3 * F)) * walkCoefficient A σ c ≤ ∫ ω, α ω ∂μ ∧ ∫ ω, α ω ∂μ ≤ M / (M - 1) * (1 + 1 / (2 * F)) * walkCoefficient A σ c) ∧
    (MemLp γ 2 μ ∧ ∫ ω, γ ω ∂μ = A.card * σ ^ 2 / c * (1 - 1 / ((r + 1) * (F - r)))) ∧
    Integrable s μ ∧ (1 - 1 / M) * (1 - 7 / (3 * F)) * Var[γ; μ] ≤ ∫ ω, s ω ∂μ ∧ ∫ ω, s ω ∂μ ≤ 3 / 2 * (M / (M - 1) * (1 + 1 / (2 * F))) * Var[γ; μ] := by
  intro M c A γ s
  have hM : 2 ≤ (List.range (k * atoms.length)).length := by
    rw [List.length_range]
    nlinarith
  have hread : ∀ ω, 0 < c ∧ ∃ B, AllRead unitCell (poolPath ξ ω) [] (List.range (k * atoms.length)) F c B ∧
      msdBootstrap sq o U.opt (g ω) B.deltaT B.disp3d B.nO U.sub U.dimension = .ok ((Z ω).diff, g' ω) := by
    intro ω
    obtain ⟨B, hB, -, hm⟩ := diffusion_inv (hZ ω)
    obtain ⟨τ, parse, pj, xs, us, h1, h2, h4, h5⟩ := readPool_parsed (hbase ω) hB
    have hus : ∀ t p, us[t]? = some p → 0 < c ∧ AllRead (L t) (u ω t) fw atoms F c (baseOf p) := by
      intro t p ht
      have htk : t < k := by
        rw [← h4]
        exact (List.getElem?_eq_some_iff.1 ht).1
      exact single_read hS hN hP (by omega) hn (hstep ω t htk) (h5 t p ht) rfl
    have h0 : us[0]? = some (us[0]'(by omega)) := List.getElem?_eq_getElem _
    exact ⟨(hus 0 _ h0).1, B, pool_read hk hξ h2 h4 (fun t p ht => (hus t p ht).2) h1, hm⟩
  obtain ⟨ω₀⟩ := μ.nonempty_of_neZero
  have hc := (hread ω₀).1
  choose B hB hm using fun ω => (hread ω).2
  have hl := fun ω => lists_of_read hM hc (hB ω) hsq hblock hsub (hm ω)
  have all := fun ω => (hl ω).2
  have : Nonempty (Arr3 ℝ) := ⟨⟨0, 0, fun _ _ _ => 0⟩⟩
  choose! a ha e2 e3 e1 e4 using all
  have := msd_error_bar h hs (List.nodup_range) hM (fun i _ j l ω => poolPath_step ξ i j l ω) A h3 hc a ha (fun ω => (Z ω).diff) (fun ω => (hl ω).1) e2 e3 e1 e4 lib hlib α hα
  have eM : ((List.range (k * atoms.length)).length : ℝ) = M := by
    rw [List.length_range]
    push_cast
    rfl
  simp only [eM] at this
  exact this

/-! ### Example: two trajectories of two atoms each -/

theorem usable_of_read {L : M3 ℝ} {u : ℕ → ℕ → V3 ℝ} {fw atoms : List ℕ} (hN : 2 ≤ atoms.length) {F : ℕ} (hF : 1 ≤ F) {c : ℝ} {B : Base ℝ} (hB : AllRead L u fw atoms F c B) : Usable F atoms.length B := by
  obtain ⟨ed, hd, hno, -, hent⟩ := hB
  have hN0 : (0 : ℝ) < atoms.length := by exact_mod_cast (by omega : 0 < atoms.length)
  have hget : ∀ i (h : i < B.disp3d.length), B.disp3d[i].n0 = atoms.length ∧ B.disp3d[i].n1 = F - (i + 1) + 1 := by
    intro i h
    obtain ⟨a, k0, w, -⟩ := hent i (by omega)
    rw [(List.getElem?_eq_some_iff.1 k0).2]
    exact ⟨w.1, w.2.1⟩
  refine ⟨fun h => ?_, hno.trans hd.symm, by rw [hd, ed, List.length_map, List.length_range], ?_, ?_, by omega, ?_⟩
  · rw [h] at hd
    simp at hd
    omega
  · intro a ha
    obtain ⟨i, hi, rfl⟩ := List.mem_iff_getElem.1 ha
    obtain ⟨g1, g2⟩ := hget i hi
    refine ⟨g1, ?_⟩
    rw [g1, g2]
    nlinarith
  · intro i h
    rw [(hget i (by omega)).2]
    omega
  · intro x hx
    obtain ⟨i, hi, rfl⟩ := List.mem_iff_getElem.1 hx
    obtain ⟨a, -, -, e⟩ := hent i (by omega)
    rw [(List.getElem?_eq_some_iff.1 e).2]
    refine le_mul_of_one_le_right hN0.le ?_
    rw [one_le_div (by positivity)]
    exact_mod_cast (by omega : i + 1 ≤ F)

/-- In trajectory `t` the atoms 0 and 1 make the steps of the walkers `2 t` and `2 t + 1`. -/
noncomputable def exPoolLeaping (ω : ℕ × ℕ × Fin 3 → Fin 3) (t : ℕ) : ℕ → ℕ → V3 ℝ := exTwoLeaping fun q => ω (t * 2 + q.1, q.2)

theorem exPoolLeaping_step (t s : ℕ) (hs : s < [0, 1].length) (j : ℕ) (l : Fin 3) (ω : ℕ × ℕ × Fin 3 → Fin 3) :
    walkStep exCube (fun ω => exPoolLeaping ω t) [2] [0, 1][s] j l ω = exLeap (ω (t * [0, 1].length + s, j, l)) := by
  have e : [0, 1][s] = s := by
    have : s < 2 := hs
    interval_cases s <;> rfl
  have hm : [0, 1][s] ∈ [0, 1] := List.getElem_mem _
  have := exTwoLeaping_step [0, 1][s] j l (fun q => ω (t * 2 + q.1, q.2)) hm
  rw [e] at this ⊢
  exact this

theorem exPoolLeaping_parsed (ω : ℕ × ℕ × Fin 3 → Fin 3) (t F : ℕ) (hF : 2 ≤ F) : ∃ p, aseParser exNumR (exParamsF F) exSelectR 1 (wrapped F ["Li", "Li", "O"] exCube 1 (exPoolLeaping ω t) fun _ _ _ => 0) = .ok p := by
  have hlen : (wrapped F ["Li", "Li", "O"] exCube 1 (exPoolLeaping ω t) fun _ _ _ => 0).length = F := by simp [wrapped]
  obtain ⟨B, N, h, -⟩ := ase_ok (E := exNumR) (P := exParamsF F) (S := exSelectR) (sp := ["Li"]) rfl rfl (by
      refine ⟨rfl, ?_, rfl, rfl, rfl, rfl⟩
      simp [exParamsF, PyNum.val]) (by show (1 : ℤ) ≤ ((F : ℕ) : ℤ); omega) (n := 3) (fr := wrapped F ["Li", "Li", "O"] exCube 1 (exPoolLeaping ω t) fun _ _ _ => 0) (by rw [hlen]; exact hF) (by
      intro f hf
      have hn : NonSingular exCube := by
        unfold NonSingular exCube
        rw [show (Matrix.of fun a b : Fin 3 => if a = b then (1 : ℝ) else 0) = 1 from rfl, Matrix.det_one]
        exact one_ne_zero
      obtain ⟨j, -, rfl⟩ := List.mem_map.mp hf
      exact ⟨rfl, by simp, hn, "Li", by simp, by simp⟩) (by
      rw [hlen]
      show ((3 * 3 * F * F * 8 : ℕ) : ℝ) ≤ ((3 * 2 * F * F * 8 : ℕ) : ℝ) * 10 ^ 9
      push_cast
      nlinarith [mul_self_nonneg (F : ℝ)])
  simp only [fromAse, analyzerFrom, Traj.asOne, bind, Except.bind] at h
  split at h
  · cases h
  · exact ⟨_, by assumption⟩

theorem exPoolLeaping_read (ω : ℕ × ℕ × Fin 3 → Fin 3) (k F : ℕ) (hk : 1 ≤ k) (hF : 2 ≤ F) :
    ∃ B, fromAse exNumR (exParamsF F) exSelectR 1 (some "identical") (.several ((List.range k).map fun t => wrapped F ["Li", "Li", "O"] exCube 1 (exPoolLeaping ω t) fun _ _ _ => 0)) = .ok B ∧
      AllRead unitCell (poolPath (fun q ω => exLeap (ω q)) ω) [] (List.range (k * [0, 1].length)) F 2 B := by
  have hg : DefaultGrid exNumR (exParamsF F) := by
    refine ⟨rfl, ?_, rfl, rfl, rfl, rfl⟩
    simp [exParamsF, PyNum.val]
  have hS : Picks exSelectR ["Li", "Li", "O"] [0, 1] [2] := .species ["Li"] rfl rfl
  obtain ⟨us, hus⟩ := mapM_ok_of (f := aseParser exNumR (exParamsF F) exSelectR 1) (l := (List.range k).map fun t => wrapped F ["Li", "Li", "O"] exCube 1 (exPoolLeaping ω t) fun _ _ _ => 0) (by
    intro x hx
    obtain ⟨t, -, rfl⟩ := List.mem_map.1 hx
    exact exPoolLeaping_parsed ω t F hF)
  obtain ⟨l1, l2⟩ := mapM_ok_inv hus
  rw [List.length_map, List.length_range] at l1
  have hread : ∀ t p, us[t]? = some p → AllRead exCube (exPoolLeaping ω t) [2] [0, 1] F 2 (baseOf p) := by
    intro t p ht
    have htk : t < k := by
      rw [← l1]
      exact (List.getElem?_eq_some_iff.1 ht).1
    obtain ⟨y, h1, h2⟩ := l2 t _ (by rw [List.getElem?_map, List.getElem?_range htk]; rfl)
    rw [ht] at h2
    obtain rfl := Option.some.inj h2
    have hb : ReadFrom exNumR (exParamsF F) exSelectR F ["Li", "Li", "O"] exCube 1 (exPoolLeaping ω t) (fun _ _ _ => 0) (.ok (baseOf p)) 1 :=
      .inl ⟨by simp only [fromAse, analyzerFrom, Traj.asOne, bind, Except.bind, h1], rfl⟩
    have := (single_read (fw := [2]) hS (by simp) hg hF (le_refl _) (fun i _ j _ => exTwoLeaping_half _ i j) hb rfl).2
    have e : (exParamsF F).stepSkip.val * (exParamsF F).timeStep.val / 1 = 2 := by simp [exParamsF, PyNum.val]
    rw [e] at this
    exact this
  obtain ⟨u0, others, rfl⟩ : ∃ u0 others, us = u0 :: others := by
    cases us with
    | nil => simp at l1; omega
    | cons a l => exact ⟨a, l, rfl⟩
  obtain ⟨B, hB, -⟩ := C53_pool _ (some fun xs => aseParser exNumR (exParamsF F) exSelectR 1 (flattenList xs)) _ u0 others hus F _ _ (same_shape (L := fun _ => exCube) hread)
  exact ⟨B, hB, pool_read (L := fun _ => exCube) (u := exPoolLeaping) hk (fun t _ s hs j l ω => exPoolLeaping_step t s hs j l ω) hus l1 hread hB⟩

/-- Two trajectories of two atoms and 1000 frames, all intervals from 2 frames on: the variance of the samples is on average between 0.74 and 2.01 of the true variance of the gradient. -/
example : ∃ (Z : (ℕ × ℕ × Fin 3 → Fin 3) → Analyzer ℝ) (α : (ℕ × ℕ × Fin 3 → Fin 3) → ℝ),
    (∀ ω, diffusionAnalyzer Real.sqrt (exOracle ℝ) () exUncR (fromAse exNumR (exParamsF 1000) exSelectR 1 (some "identical")
      (.several ((List.range 2).map fun t => wrapped 1000 ["Li", "Li", "O"] exCube 1 (exPoolLeaping ω t) fun _ _ _ => 0))) = .ok (Z ω, ())) ∧
    (∀ ω, exLsLibR.curveFit ((Z ω).diff.nO.drop 1) ((Z ω).diff.dt.drop 1) ((Z ω).diff.v.drop 1) = .ok (α ω)) ∧
    74 / 100 * Var[fun ω => valuesFrom (Z ω).diff 1 0 / timesFrom (Z ω).diff 1 0; exLeaps] ≤ ∫ ω, α ω / (Z ω).diff.nO.getD 1 0 ∂exLeaps ∧
    ∫ ω, α ω / (Z ω).diff.nO.getD 1 0 ∂exLeaps ≤ 201 / 100 * Var[fun ω => valuesFrom (Z ω).diff 1 0 / timesFrom (Z ω).diff 1 0; exLeaps] := by
  have hsq : IsSqrt Real.sqrt := fun x hx => ⟨Real.sqrt_nonneg x, Real.sq_sqrt hx⟩
  choose B hB hread using fun ω => exPoolLeaping_read ω 2 1000 (by omega) (by omega)
  have hok : ∀ ω, ∃ b, msdBootstrap Real.sqrt (exOracle ℝ) exUncR.opt () (B ω).deltaT (B ω).disp3d (B ω).nO exUncR.sub exUncR.dimension = .ok (b, ()) := by
    intro ω
    obtain ⟨⟨b, _, h, -⟩, -⟩ := analyzers_ok (usable_of_read (by simp) (by omega) (hread ω)) Real.sqrt (exOracle ℝ) () exUncR (.off rfl rfl) le_rfl (by decide +kernel)
    exact ⟨b, h⟩
  choose b hb using hok
  have hZ : ∀ ω, diffusionAnalyzer Real.sqrt (exOracle ℝ) () exUncR (fromAse exNumR (exParamsF 1000) exSelectR 1 (some "identical")
      (.several ((List.range 2).map fun t => wrapped 1000 ["Li", "Li", "O"] exCube 1 (exPoolLeaping ω t) fun _ _ _ => 0))) = .ok (⟨B ω, b ω⟩, ()) := by
    intro ω
    rw [hB ω]
    simp only [diffusionAnalyzer, bind, Except.bind]
    rw [hb ω]
  have hg : DefaultGrid exNumR (exParamsF 1000) := by
    refine ⟨rfl, ?_, rfl, rfl, rfl, rfl⟩
    simp [exParamsF, PyNum.val]
  have hS : Picks exSelectR ["Li", "Li", "O"] [0, 1] [2] := .species ["Li"] rfl rfl
  have hfit : ∀ ω, ∃ α, exLsLibR.curveFit ((b ω).nO.drop 1) ((b ω).dt.drop 1) ((b ω).v.drop 1) = .ok α := by
    intro ω
    obtain ⟨⟨-, l1, l2⟩, all⟩ := lists_of_read (by simp) two_pos (hread ω) hsq rfl rfl (hb ω)
    obtain ⟨a, -, d2, d3, -, -⟩ := all 1 (by omega)
    refine exLeastR_ok (fun x hx => ?_) ?_ ?_ ?_
    · obtain ⟨i, hi, rfl⟩ := List.mem_iff_getElem.1 (List.mem_of_mem_drop hx)
      obtain ⟨a, -, -, -, -, h4⟩ := all i (by omega)
      rw [List.getElem?_eq_getElem hi] at h4
      exact ⟨_, Option.some.inj h4⟩
    · rw [List.length_drop]
      omega
    · rw [List.getD_eq_getElem?_getD, List.getElem?_drop, d2]
      norm_num
    · rw [List.getD_eq_getElem?_getD, List.getElem?_drop, d3]
      norm_num
  choose α hα using hfit
  obtain ⟨-, -, -, c1, c2⟩ := C161_pool exLeaps exNumR (exParamsF 1000) exSelectR ["Li", "Li", "O"] [0, 1] [2] hS (by simp) hg 1000
      (le_refl _) 2 (by omega) (fun _ => exCube) (fun _ => 1) exPoolLeaping (fun _ _ _ _ _ => 0) (fun ω t _ i _ j _ => exTwoLeaping_half _ i j) _ exLeaps_walk.1 (Real.sqrt (1 / 48))
      exLeaps_walk.2 (fun t _ s hs j l ω => exPoolLeaping_step t s hs j l ω) Real.sqrt hsq (exOracle ℝ) exUncR rfl rfl _ 1 (fun ω => Or.inl ⟨rfl, rfl⟩)
      (fun _ => ()) (fun _ => ()) (fun ω => ⟨B ω, b ω⟩) hZ 1 (by norm_num) (fun _ => exLsLibR) (fun _ => exLsLibR_least) α hα
  have hv : 0 ≤ Var[fun ω => valuesFrom (b ω) 1 0 / timesFrom (b ω) 1 0; exLeaps] := variance_nonneg _ _
  refine ⟨fun ω => ⟨B ω, b ω⟩, α, hZ, hα, le_trans ?_ c1, c2.trans ?_⟩
  · refine mul_le_mul_of_nonneg_right ?_ hv
    norm_num
  · refine mul_le_mul_of_nonneg_right ?_ hv
    norm_num

end Kinisi
